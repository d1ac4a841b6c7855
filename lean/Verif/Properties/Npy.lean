import Verif.Proofs.NpyFiles

/-!
C102: the `.npy` files that the native unit tests read and cnpy writes.
-/

namespace Verif.Properties
open Verif Model Spec Proofs

/-- `npy_load` reads every file in numpy's format whose header line has at most 256 bytes: the shape, the bytes per element, the order and exactly the bytes of
the elements.  The preamble may be anything of ten bytes, bytes after the elements are ignored. -/
theorem C102_load (pre data : List Char) (order ty : Char) (ws : ℕ) (fortran : Bool) (shape : List ℕ) (pad : ℕ) (hpre : pre.length = 10)
    (ho : order = '<' ∨ order = '|') (hty : TypeLetter ty) (hs : ∀ d ∈ shape, d < 2 ^ 31) (hl : (headerLine order ty ws fortran shape pad).length ≤ 256)
    (h0 : 0 < shape.prod * ws) (hn : shape.prod * ws ≤ data.length) :
    npyLoad (pre ++ headerLine order ty ws fortran shape pad ++ data) = some ⟨shape, ws, fortran, data.take (shape.prod * ws)⟩ := by
  unfold npyLoad
  rw [List.append_assoc, loadNpy_line hpre ho hty (fun d hd => by have := hs d hd; omega) hl (by omega) hn]
  rfl

/-- A file of numpy with a 2 × 3 array of bytes in Fortran order. -/
example : npyLoad ("0123456789".toList ++ headerLine '|' 'u' 1 true [2, 3] 3 ++ "abcdef".toList) = some ⟨[2, 3], 1, true, "abcdef".toList⟩ :=
  C102_load _ _ _ _ _ _ _ _ rfl (.inr rfl) (by decide) (by decide) (by decide +kernel) (by decide) (by decide)

/-- A number that is not in an array: shape `()`. -/
example : npyLoad ("0123456789".toList ++ headerLine '<' 'f' 8 false [] 3 ++ "abcdefgh".toList) = some ⟨[], 8, false, "abcdefgh".toList⟩ :=
  C102_load _ _ _ _ _ _ _ _ rfl (.inl rfl) (by decide) (by decide) (by decide +kernel) (by decide) (by decide)

/-- A file with fewer bytes than the shape says is refused. -/
theorem C102_short (pre data : List Char) (order ty : Char) (ws : ℕ) (fortran : Bool) (shape : List ℕ) (pad : ℕ) (hpre : pre.length = 10)
    (ho : order = '<' ∨ order = '|') (hty : TypeLetter ty) (hs : ∀ d ∈ shape, d < 2 ^ 31) (hl : (headerLine order ty ws fortran shape pad).length ≤ 256)
    (hn : data.length < shape.prod * ws) : npyLoad (pre ++ headerLine order ty ws fortran shape pad ++ data) = none := by
  unfold npyLoad loadNpy
  rw [List.append_assoc, parseNpyHeader_line hpre ho hty (fun d hd => by have := hs d hd; omega) hl]
  simp only [Option.bind_eq_bind, Option.bind_some]
  rw [if_neg (by omega), if_pos (by omega)]
  rfl

example : npyLoad ("0123456789".toList ++ headerLine '|' 'u' 1 true [2, 3] 3 ++ "abcde".toList) = none :=
  C102_short _ _ _ _ _ _ _ _ rfl (.inr rfl) (by decide) (by decide) (by decide +kernel) (by decide)

/-- What `npy_save` writes is numpy's format: the ten bytes with the length of the line, the line, the data; the data begin at a multiple of 16 bytes. -/
theorem C102_format (ty : Char) (ws : ℕ) (shape : List ℕ) (data : List Char) (hs : shape ≠ []) (h0 : 0 < shape.prod) (hp : shape.prod < 2 ^ 31)
    (hd : data.length = shape.prod * ws) : ∃ pad < 16, ∃ len, len = (headerLine '<' ty ws false shape pad).length ∧ 16 ∣ 10 + len ∧
      npySave ty ws shape data = some ([Char.ofNat 147] ++ "NUMPY".toList ++ [Char.ofNat 1, Char.ofNat 0, Char.ofNat (len % 256), Char.ofNat (len / 256 % 256)] ++
        headerLine '<' ty ws false shape pad ++ data) := by
  obtain ⟨pad, h1, h2, h3⟩ := createNpyHeader_format (ty := ty) (ws := ws) hs
  refine ⟨pad, by omega, _, rfl, by omega, ?_⟩
  unfold npySave
  rw [h1, npyBytes_eq (by omega) (by omega) hd]
  simp [le16]

example : npySave 'f' 4 [2, 1] "abcdefgh".toList = some ([Char.ofNat 147] ++ "NUMPY".toList ++ [Char.ofNat 1, Char.ofNat 0, Char.ofNat 70, Char.ofNat 0] ++
    headerLine '<' 'f' 4 false [2, 1] 10 ++ "abcdefgh".toList) := by decide +kernel

/-- What one would like: every array with fewer than 2^31 elements is read back as it was written. -/
def C102_claim : Prop := ∀ (ty : Char) (ws : ℕ) (shape : List ℕ) (data : List Char), shape ≠ [] → TypeLetter ty → 0 < shape.prod * ws → shape.prod < 2 ^ 31 →
  data.length = shape.prod * ws → (npySave ty ws shape data).bind npyLoad = some ⟨shape, ws, false, data⟩

/-- Seventy dimensions of length one: the header line does not fit the buffer of 256 bytes. -/
theorem C102_claim_false : ¬ C102_claim := by
  intro h
  have := h 'f' 1 (List.replicate 70 1) ['a'] (by decide) (by decide) (by simp) (by simp) (by simp)
  exact absurd this (by decide +kernel)

/-- Save then load, as long as the header has at most 256 bytes with its padding. -/
theorem C102_partial (ty : Char) (ws : ℕ) (shape : List ℕ) (data : List Char) (hs : shape ≠ []) (hty : TypeLetter ty) (h0 : 0 < shape.prod * ws)
    (hp : shape.prod < 2 ^ 31) (hd : data.length = shape.prod * ws) (hl : (headerLine '<' ty ws false shape 0).length + 15 ≤ 256) :
    (npySave ty ws shape data).bind npyLoad = some ⟨shape, ws, false, data⟩ := save_load hs hty hl h0 (by omega) hd

/-- Up to fifteen dimensions and elements of fewer than 1000 bytes every array with fewer than 2^31 elements is read back as it was written. -/
theorem C102_dimensions (ty : Char) (ws : ℕ) (shape : List ℕ) (data : List Char) (hs : shape ≠ []) (hty : TypeLetter ty) (h0 : 0 < shape.prod * ws)
    (hp : shape.prod < 2 ^ 31) (hd : data.length = shape.prod * ws) (hw : ws < 1000) (hn : shape.length ≤ 15) :
    (npySave ty ws shape data).bind npyLoad = some ⟨shape, ws, false, data⟩ := by
  have hp0 : shape.prod ≠ 0 := by rintro e; simp [e] at h0
  have h1 := tuple_length_le (dim_le hp0 (by omega))
  have h2 : (Nat.toDigits 10 ws).length ≤ 3 := toDigits_length_le (by omega) (by omega)
  refine save_load hs hty ?_ h0 (by omega) hd
  rw [header_length]
  omega

example : (npySave 'f' 4 [2, 1] "abcdefgh".toList).bind npyLoad = some ⟨[2, 1], 4, false, "abcdefgh".toList⟩ :=
  C102_dimensions _ _ _ _ (by decide) (by decide) (by decide) (by decide) rfl (by decide) (by decide)

/-- What one would like: appending adds the new rows. -/
def C102_append_claim : Prop := ∀ (ty : Char) (ws n m : ℕ) (l : List ℕ) (data new : List Char), TypeLetter ty → l.length ≤ 14 → ws < 1000 →
  0 < n * l.prod * ws → (n + m) * l.prod < 2 ^ 31 → data.length = n * l.prod * ws → 0 < m → new.length = m * l.prod * ws →
  ((npySave ty ws (n :: l) data).bind fun file => (npyAppend file ty ws (m :: l) new).bind npyLoad) = some ⟨(n + m) :: l, ws, false, data ++ new⟩

/-- The header of the longer array needs sixteen bytes more and overwrites the first sixteen bytes of the data. -/
theorem C102_append_claim_false : ¬ C102_append_claim := by
  intro h
  have := h 'i' 1 9 1 [10, 1, 1, 1] (List.replicate 90 'a') (List.replicate 10 'b') (by decide) (by decide) (by decide) (by decide) (by decide) (by simp) (by decide)
    (by simp)
  exact absurd this (by decide +kernel)

/-- Appending adds the new rows if the header keeps its length. -/
theorem C102_append_partial (ty : Char) (ws n m : ℕ) (l : List ℕ) (data new : List Char) (hty : TypeLetter ty) (hl : l.length ≤ 14) (hw : ws < 1000)
    (h0 : 0 < n * l.prod * ws) (hp : (n + m) * l.prod < 2 ^ 31) (hd : data.length = n * l.prod * ws) (hm : 0 < m) (hnew : new.length = m * l.prod * ws)
    (hsame : ((headerLine '<' ty ws false (n :: l) 0).length + 9) / 16 = ((headerLine '<' ty ws false ((n + m) :: l) 0).length + 9) / 16) :
    ((npySave ty ws (n :: l) data).bind fun file => (npyAppend file ty ws (m :: l) new).bind npyLoad) = some ⟨(n + m) :: l, ws, false, data ++ new⟩ := by
  obtain ⟨pre, pad, e1, e2, e3, e4⟩ := createNpyHeader_eq (ty := ty) (ws := ws) (shape := n :: l) (by simp)
  obtain ⟨pre', pad', e1', e2', e3', e4'⟩ := createNpyHeader_eq (ty := ty) (ws := ws) (shape := (n + m) :: l) (by simp)
  have hn0 : n * l.prod ≠ 0 := by rintro e; simp [e] at h0
  have hl0 : l.prod ≠ 0 := by rintro e; simp [e] at hn0
  have hexp : (n + m) * l.prod = n * l.prod + m * l.prod := by ring
  have hmpos : 0 < m * l.prod := Nat.mul_pos hm (Nat.pos_of_ne_zero hl0)
  have hw0 : 0 < ws := Nat.pos_of_ne_zero (by rintro e; simp [e] at h0)
  have d1 := dim_le (shape := n :: l) (by simpa using hn0) (by rw [List.prod_cons]; omega)
  have d2 := dim_le (shape := (n + m) :: l) (by rw [List.prod_cons]; omega) (by rw [List.prod_cons]; omega)
  have t1 := tuple_length_le d1
  have t2 := tuple_length_le d2
  have hws : (Nat.toDigits 10 ws).length ≤ 3 := toDigits_length_le (by omega) (by omega)
  have L1 := npyDict_length ty ws (n :: l)
  have L2 := npyDict_length ty ws ((n + m) :: l)
  have H1 := header_length ty ws (n :: l) 0
  have H2 := header_length ty ws ((n + m) :: l) 0
  simp only [List.length_cons] at t1 t2
  unfold npySave
  rw [e2, npyBytes_eq (by simpa using hn0) (by rw [List.prod_cons]; omega) (by rw [List.prod_cons]; exact hd)]
  simp only [Option.bind_eq_bind, Option.bind_some]
  have hst : ∀ l : List ℕ, sameTail l l = some () := by
    intro l; induction l with
    | nil => rfl
    | cons a l ih => rw [sameTail, if_pos rfl, ih]
  have happ : npyAppend (pre ++ headerLine '<' ty ws false (n :: l) pad ++ data) ty ws (m :: l) new =
      some (pre' ++ (headerLine '<' ty ws false ((n + m) :: l) pad' ++ (data ++ new))) := by
    unfold npyAppend
    have hdrop : (pre ++ headerLine '<' ty ws false (n :: l) pad ++ data).drop (pre' ++ headerLine '<' ty ws false ((n + m) :: l) pad').length = data := by
      refine List.drop_left' ?_
      rw [List.length_append, List.length_append, e1, e1', e3, e3']
      omega
    rw [List.append_assoc, parseNpyHeader_line e1 (.inl rfl) hty d1 (by omega), ← List.append_assoc]
    simp only [Option.bind_eq_bind, Option.bind_some, Bool.false_eq_true, if_false, ne_eq, not_true, List.drop_succ_cons, List.drop_zero, hst, List.head?_cons, e2', hdrop]
    rw [npyBytes_eq (by rw [List.prod_cons]; omega) (by rw [List.prod_cons]; omega) (by rw [List.prod_cons]; exact hnew)]
    simp
  rw [happ, Option.bind_some]
  have hlen : (data ++ new).length = ((n + m) :: l).prod * ws := by rw [List.length_append, hd, hnew, List.prod_cons]; ring
  unfold npyLoad
  rw [loadNpy_line e1' (.inl rfl) hty d2 (by omega) (by
    rw [← hlen, List.length_append, hnew]
    have := Nat.mul_pos hmpos hw0
    omega) hlen.ge, ← hlen, List.take_length]
  rfl

example : ((npySave 'c' 16 [1, 1, 1, 1] (List.replicate 16 'a')).bind fun file => (npyAppend file 'c' 16 [2, 1, 1, 1] (List.replicate 32 'b')).bind npyLoad) =
    some ⟨[3, 1, 1, 1], 16, false, List.replicate 16 'a' ++ List.replicate 32 'b'⟩ :=
  C102_append_partial 'c' 16 1 2 [1, 1, 1] _ _ (by decide) (by decide) (by decide) (by decide) (by decide) (by simp) (by decide) (by simp) (by decide +kernel)

/-- For lists and tables with elements of fewer than 100 bytes appending always adds the new rows. -/
theorem C102_append_tables (ty : Char) (ws n m : ℕ) (l : List ℕ) (data new : List Char) (hty : TypeLetter ty) (hl : l.length ≤ 1) (hw : ws < 100)
    (h0 : 0 < n * l.prod * ws) (hp : (n + m) * l.prod < 2 ^ 31) (hd : data.length = n * l.prod * ws) (hm : 0 < m) (hnew : new.length = m * l.prod * ws) :
    ((npySave ty ws (n :: l) data).bind fun file => (npyAppend file ty ws (m :: l) new).bind npyLoad) = some ⟨(n + m) :: l, ws, false, data ++ new⟩ := by
  refine C102_append_partial ty ws n m l data new hty (by omega) (by omega) h0 hp hd hm hnew ?_
  have hw1 : (Nat.toDigits 10 ws).length ≤ 2 := toDigits_length_le (by omega) (by omega)
  have hw2 : 0 < (Nat.toDigits 10 ws).length := List.length_pos_of_ne_nil Nat.toDigits_ne_nil
  have hn0 : n * l.prod ≠ 0 := by rintro e; simp [e] at h0
  have hl0 : l.prod ≠ 0 := by rintro e; simp [e] at hn0
  have key : ∀ k, k ≠ 0 → k * l.prod < 2 ^ 31 → ((headerLine '<' ty ws false (k :: l) 0).length + 9) / 16 = 4 := by
    intro k hk hkp
    rw [header_length, ← shapeText_eq]
    have hk1 : 0 < (Nat.toDigits 10 k).length := List.length_pos_of_ne_nil Nat.toDigits_ne_nil
    match l, hl with
    | [], _ =>
      have : (Nat.toDigits 10 k).length ≤ 10 := toDigits_length_le (by omega) (by simp at hkp; omega)
      simp only [shapeText, List.length_append, List.length_cons, List.length_nil]
      omega
    | [b], _ =>
      simp only [List.prod_cons, List.prod_nil, mul_one] at hkp hl0
      have hb1 : 0 < (Nat.toDigits 10 b).length := List.length_pos_of_ne_nil Nat.toDigits_ne_nil
      have h1 := pow_le_of_digits hk
      have h2 := pow_le_of_digits hl0
      have h3 : 10 ^ ((Nat.toDigits 10 k).length - 1 + ((Nat.toDigits 10 b).length - 1)) < 10 ^ 10 := by
        rw [pow_add]
        calc _ ≤ k * b := Nat.mul_le_mul h1 h2
          _ < 10 ^ 10 := by omega
      have h4 := (Nat.pow_lt_pow_iff_right (by omega : 1 < 10)).mp h3
      simp only [shapeText, List.length_append, List.length_cons, List.length_nil, List.flatMap_cons, List.flatMap_nil]
      omega
  have hn : n ≠ 0 := by rintro rfl; simp at h0
  have hexp : (n + m) * l.prod = n * l.prod + m * l.prod := by ring
  rw [key n hn (by omega), key (n + m) (by omega) hp]

example : ((npySave 'f' 2 [9, 1] (List.replicate 18 'a')).bind fun file => (npyAppend file 'f' 2 [1, 1] ['b', 'c']).bind npyLoad) =
    some ⟨[10, 1], 2, false, List.replicate 18 'a' ++ ['b', 'c']⟩ :=
  C102_append_tables 'f' 2 9 1 [1] _ _ (by decide) (by decide) (by decide) (by decide) (by decide) (by simp) (by decide) rfl

/-- What one would like: a list is not appended to a table. -/
def C102_refuse_claim : Prop := ∀ (ty : Char) (ws n k m : ℕ) (data new : List Char), TypeLetter ty → 0 < ws → 0 < n → 2 ≤ k → 0 < m →
  (npySave ty ws [n, k] data).bind (fun file => npyAppend file ty ws [m] new) = none

/-- It is: the assertion in cnpy.h:107 repeats its own condition. -/
theorem C102_refuse_claim_false : ¬ C102_refuse_claim := by
  intro h
  exact absurd (h 'f' 1 1 2 1 "ab".toList "c".toList (by decide) (by decide) (by decide) (by decide) (by decide)) (by decide +kernel)

/-- The file of a table to which a list was appended cannot be read any more: the shape counts the list as rows, the bytes of the rows are missing. -/
theorem C102_spoiled (ty : Char) (ws n k m : ℕ) (data new : List Char) (hty : TypeLetter ty) (hw0 : 0 < ws) (hw : ws < 100) (hn : 0 < n) (hk : 2 ≤ k) (hm : 0 < m)
    (hp : (n + m) * k < 2 ^ 31) (hd : data.length = n * k * ws) (hnew : new.length = m * ws) :
    ∃ file spoiled, npySave ty ws [n, k] data = some file ∧ npyLoad file = some ⟨[n, k], ws, false, data⟩ ∧ npyAppend file ty ws [m] new = some spoiled ∧
      npyLoad spoiled = none := by
  have hexp : (n + m) * k = n * k + m * k := by ring
  have hnk : 0 < n * k := Nat.mul_pos hn (by omega)
  have hmk : m < m * k := by nlinarith
  have P2 : ∀ a b : ℕ, [a, b].prod = a * b := by simp
  have P1 : ∀ a : ℕ, [a].prod = a := by simp
  obtain ⟨pre, pad, e1, e2, e3, e4⟩ := createNpyHeader_eq (ty := ty) (ws := ws) (shape := [n, k]) (by simp)
  obtain ⟨pre', pad', e1', e2', e3', e4'⟩ := createNpyHeader_eq (ty := ty) (ws := ws) (shape := [n + m, k]) (by simp)
  have d1 := dim_le (shape := [n, k]) (by rw [P2]; omega) (by rw [P2]; omega)
  have d2 := dim_le (shape := [n + m, k]) (by rw [P2]; omega) (by rw [P2]; omega)
  have t1 := tuple_length_le d1
  have t2 := tuple_length_le d2
  have hws : (Nat.toDigits 10 ws).length ≤ 2 := toDigits_length_le (by omega) (by omega)
  have L1 := npyDict_length ty ws [n, k]
  have L2 := npyDict_length ty ws [n + m, k]
  have H1 := header_length ty ws [n, k] 0
  have H2 := header_length ty ws [n + m, k] 0
  simp only [List.length_cons, List.length_nil] at t1 t2
  have hsave : npySave ty ws [n, k] data = some (pre ++ headerLine '<' ty ws false [n, k] pad ++ data) := by
    unfold npySave
    rw [e2, npyBytes_eq (by rw [P2]; omega) (by rw [P2]; omega) (by rw [P2]; exact hd)]
    simp only [Option.bind_eq_bind, Option.bind_some]
  have hload := C102_dimensions ty ws [n, k] data (by simp) hty (by rw [P2]; exact Nat.mul_pos hnk hw0)
    (by rw [P2]; omega) (by rw [P2]; exact hd) (by omega) (by simp)
  rw [hsave, Option.bind_some] at hload
  generalize hf : pre ++ headerLine '<' ty ws false [n, k] pad ++ data = file at hsave hload
  refine ⟨file, pre' ++ (headerLine '<' ty ws false [n + m, k] pad' ++ (file.drop (pre' ++ headerLine '<' ty ws false [n + m, k] pad').length ++ new)), hsave, hload, ?_, ?_⟩
  · have hparse : parseNpyHeader file = some (⟨ws, [n, k], false⟩, data) := by
      rw [← hf, List.append_assoc]
      exact parseNpyHeader_line e1 (.inl rfl) hty d1 (by omega)
    rw [append_parsed hparse rfl e2' (npyBytes_eq (by rw [P1]; omega) (by rw [P1]; omega) (by rw [P1]; exact hnew)), List.append_assoc]
  · rw [← List.append_assoc]
    refine C102_short pre' _ '<' ty ws false [n + m, k] pad' e1' (.inl rfl) hty (fun d hd => by have := d2 d hd; omega) (by omega) ?_
    have hlen : (file.drop (pre' ++ headerLine '<' ty ws false [n + m, k] pad').length).length ≤ n * k * ws := by
      have hle : (pre ++ headerLine '<' ty ws false [n, k] pad).length ≤ (pre' ++ headerLine '<' ty ws false [n + m, k] pad').length := by
        have := digits_le_of_le (show n ≤ n + m by omega)
        rw [List.length_append, List.length_append, e1, e1', e3, e3']
        have T1 : (tupleText [n, k]).length = (Nat.toDigits 10 n).length + 2 + (Nat.toDigits 10 k).length := by rw [← shapeText_eq]; simp [shapeText]; omega
        have T2 : (tupleText [n + m, k]).length = (Nat.toDigits 10 (n + m)).length + 2 + (Nat.toDigits 10 k).length := by rw [← shapeText_eq]; simp [shapeText]; omega
        omega
      rw [List.length_drop, ← hf, List.length_append (bs := data), hd]
      omega
    rw [List.length_append, hnew]
    simp only [List.prod_cons, List.prod_nil, mul_one]
    have : (n + m) * k * ws = n * k * ws + m * k * ws := by ring
    have : m * ws < m * k * ws := Nat.mul_lt_mul_of_pos_right hmk hw0
    omega

example : ∃ file spoiled, npySave 'f' 1 [1, 2] "ab".toList = some file ∧ npyLoad file = some ⟨[1, 2], 1, false, "ab".toList⟩ ∧
    npyAppend file 'f' 1 [1] "c".toList = some spoiled ∧ npyLoad spoiled = none :=
  C102_spoiled 'f' 1 1 2 1 _ _ (by decide) (by decide) (by decide) (by decide) (by decide) (by decide) (by decide) rfl rfl

/-- `as_vec<T>()` of a loaded array gives the elements one after the other if `T` has the size of the elements. -/
theorem C102_elements (file : List Char) (a : NpyArray) (h : npyLoad file = some a) :
    ∃ v, asVec a.wordSize a = some v ∧ v.flatten = a.bytes ∧ v.length = a.shape.prod ∧ ∀ e ∈ v, e.length = a.wordSize := by
  have hb : a.bytes.length = a.shape.prod * a.wordSize := (load_bytes h).1
  unfold asVec
  rw [if_pos hb.ge]
  exact ⟨_, rfl, chunks_spec _ _ _ hb⟩

/-- For a type of another size it stays inside the array if and only if the type is not larger; the file does not say so, `T` is up to the caller. -/
theorem C102_element_size (file : List Char) (a : NpyArray) (sz : ℕ) (h : npyLoad file = some a) : asVec sz a ≠ none ↔ sz ≤ a.wordSize := by
  obtain ⟨hb, h0⟩ := load_bytes h
  have hp : 0 < a.shape.prod := Nat.pos_of_ne_zero (by rintro e; simp [e] at h0)
  unfold asVec
  rw [hb]
  constructor
  · intro h1
    by_contra hc
    rw [if_neg (by
      push Not at hc ⊢
      exact Nat.mul_lt_mul_of_pos_left hc hp)] at h1
    exact h1 rfl
  · intro h1
    rw [if_pos (Nat.mul_le_mul_left _ h1)]
    simp

example : ∃ a, npyLoad ("0123456789".toList ++ headerLine '<' 'f' 4 false [2] 3 ++ "abcdefgh".toList) = some a ∧
    asVec 4 a = some ["abcd".toList, "efgh".toList] ∧ asVec 8 a = none := ⟨_, C102_load _ _ _ _ _ _ _ _ rfl (.inl rfl) (by decide) (by decide) (by decide +kernel) (by decide) (by decide), rfl, by decide⟩

end Verif.Properties
