import Verif.Proofs.Zip
import Verif.Spec.Npz

/-! Lemmas for the properties of `.npy` files and of archives. -/

namespace Verif.Proofs
open Verif Model Spec

theorem save_load {ty : Char} {ws : ℕ} {shape : List ℕ} {data : List Char} (hs : shape ≠ []) (hty : TypeLetter ty)
    (hl : (headerLine '<' ty ws false shape 0).length + 15 ≤ 256) (h0 : 0 < shape.prod * ws) (hp : shape.prod < 2147483648)
    (hd : data.length = shape.prod * ws) : (npySave ty ws shape data).bind npyLoad = some ⟨shape, ws, false, data⟩ := by
  obtain ⟨pre, pad, e1, e2, e3, e4⟩ := createNpyHeader_eq (ty := ty) (ws := ws) hs
  have hp0 : shape.prod ≠ 0 := by rintro e; simp [e] at h0
  have hlen := npyDict_length ty ws shape
  unfold npySave
  rw [e2, npyBytes_eq hp0 hp hd]
  simp only [Option.bind_eq_bind, Option.bind_some]
  unfold npyLoad
  rw [List.append_assoc, loadNpy_line e1 (.inl rfl) hty (dim_le hp0 hp) (by omega) (by omega) hd.ge, ← hd, List.take_length]
  rfl

theorem tuple_length_le {shape : List ℕ} (h : ∀ d ∈ shape, d ≤ 2147483647) : (tupleText shape).length ≤ 12 * shape.length := by
  have hd : ∀ d ∈ shape, (Nat.toDigits 10 d).length ≤ 10 := fun d hd => toDigits_length_le (by omega) (by have := h d hd; omega)
  rw [← shapeText_eq]
  match shape, hd with
  | [], _ => simp [shapeText]
  | [a], hd => have := hd a (by simp); simp [shapeText]; omega
  | a :: b :: l, hd =>
    have e : shapeText (a :: b :: l) = Nat.toDigits 10 a ++ (b :: l).flatMap (fun d => [',', ' '] ++ Nat.toDigits 10 d) := by
      rw [shapeText]; simp
    have ht : ∀ l : List ℕ, (∀ d ∈ l, (Nat.toDigits 10 d).length ≤ 10) → (l.flatMap (fun d => [',', ' '] ++ Nat.toDigits 10 d)).length ≤ 12 * l.length := by
      intro l hl
      induction l with
      | nil => simp
      | cons c l ih =>
        have h1 := hl c (by simp)
        have h2 := ih (fun d hd => hl d (by simp [hd]))
        rw [List.flatMap_cons, List.length_append, List.length_append, List.length_cons]
        simp only [List.length_cons, List.length_nil]
        omega
    have h1 := hd a (by simp)
    have h2 := ht (b :: l) (fun d hd' => hd d (by simp [List.mem_cons.mp hd']))
    rw [e, List.length_append]
    simp only [List.length_cons] at h2 ⊢
    omega

theorem header_length (ty : Char) (ws : ℕ) (shape : List ℕ) (pad : ℕ) :
    (headerLine '<' ty ws false shape pad).length = 55 + (Nat.toDigits 10 ws).length + (tupleText shape).length + pad := by
  rw [headerLine_eq]
  have e3 : "'descr': '".toList.length = 10 := rfl
  have e4 : "', 'fortran_order': ".toList.length = 20 := rfl
  have e5 : "False".toList.length = 5 := rfl
  have e6 : ", 'shape': (".toList.length = 12 := rfl
  have e7 : "), }".toList.length = 4 := rfl
  simp only [List.length_append, List.length_cons, List.length_nil, List.length_replicate, e3, e4, e5, e6, e7, Bool.false_eq_true, if_false]
  omega

theorem pow_le_of_digits {n : ℕ} (h : n ≠ 0) : 10 ^ ((Nat.toDigits 10 n).length - 1) ≤ n := by
  by_contra hc
  push Not at hc
  rcases Nat.eq_zero_or_pos ((Nat.toDigits 10 n).length - 1) with h0 | h0
  · rw [h0] at hc; omega
  · have := toDigits_length_le h0 hc
    omega

theorem digits_le_of_le {a b : ℕ} (h : a ≤ b) : (Nat.toDigits 10 a).length ≤ (Nat.toDigits 10 b).length := by
  have hb : 0 < (Nat.toDigits 10 b).length := List.length_pos_of_ne_nil Nat.toDigits_ne_nil
  exact toDigits_length_le hb (lt_of_le_of_lt h ((Nat.length_toDigits_le_iff (by omega) hb).mp le_rfl))

theorem append_parsed {file rest header bytes new : List Char} {ty : Char} {ws n m : ℕ} {l k : List ℕ} (h : parseNpyHeader file = some (⟨ws, n :: l, false⟩, rest))
    (hk : sameTail k l = some ()) (hh : createNpyHeader ty ws ((n + m) :: l) = some header) (hb : npyBytes ws (m :: k) new = some bytes) :
    npyAppend file ty ws (m :: k) new = some (header ++ (file.drop header.length ++ bytes)) := by
  unfold npyAppend
  rw [h]
  simp [hk, hh, hb]

theorem chunks_spec (sz : ℕ) : ∀ (n : ℕ) (l : List Char), l.length = n * sz → (chunks sz n l).flatten = l ∧ (chunks sz n l).length = n ∧
    ∀ e ∈ chunks sz n l, e.length = sz := by
  intro n
  induction n with
  | zero => intro l h; simp at h; simp [chunks, h]
  | succ n ih =>
    intro l h
    have hl : l.length = n * sz + sz := by rw [h]; ring
    obtain ⟨h1, h2, h3⟩ := ih (l.drop sz) (by rw [List.length_drop]; omega)
    refine ⟨by rw [chunks, List.flatten_cons, h1, List.take_append_drop], by rw [chunks, List.length_cons, h2], ?_⟩
    intro e he
    rw [chunks] at he
    rcases List.mem_cons.mp he with rfl | he
    · rw [List.length_take]; omega
    · exact h3 e he

theorem load_bytes {file : List Char} {a : NpyArray} (h : npyLoad file = some a) : a.bytes.length = a.shape.prod * a.wordSize ∧ a.shape.prod * a.wordSize ≠ 0 := by
  unfold npyLoad loadNpy at h
  cases hp : parseNpyHeader file with
  | none => rw [hp] at h; exact absurd h (by simp)
  | some x =>
    rw [hp] at h
    simp only [Option.bind_eq_bind, Option.bind_some] at h
    by_cases h1 : x.1.shape.prod * x.1.wordSize = 0
    · rw [if_pos h1] at h; exact absurd h (by simp)
    · rw [if_neg h1] at h
      by_cases h2 : x.2.length < x.1.shape.prod * x.1.wordSize
      · rw [if_pos h2] at h; exact absurd h (by simp)
      · rw [if_neg h2] at h
        simp only [Option.map_some, Option.some.injEq] at h
        subst h
        exact ⟨by simp; omega, h1⟩

/-- The bytes of a member and of its entry in the directory. -/
structure Member where
  item : Saved
  crc : ℕ
  nbytes : ℕ
  header : List Char
  offset : ℕ

def Member.bytes (m : Member) : List Char := localHeader m.crc m.nbytes (m.item.name ++ ".npy".toList) ++ (m.header ++ m.item.data)

def Member.entry (m : Member) : List Char :=
  globalEntry (localHeader m.crc m.nbytes (m.item.name ++ ".npy".toList)) m.offset (m.item.name ++ ".npy".toList)

def Member.Fits (m : Member) : Prop := m.item.Good ∧ m.nbytes = m.item.data.length + m.header.length ∧ m.nbytes < 4294967296 ∧ m.header.length ≤ 266 ∧
  createNpyHeader m.item.ty m.item.ws m.item.shape = some m.header

def body (ms : List Member) : List Char := ms.flatMap Member.bytes
def directory (ms : List Member) : List Char := ms.flatMap Member.entry

theorem member_load {m : Member} (h : m.Fits) (rest : List Char) : loadNpy (m.header ++ (m.item.data ++ rest)) = some (m.item.array, rest) := by
  obtain ⟨⟨hs, hty, h0, hp, hd, hw, hn, hname⟩, h1, h2, h3, h4⟩ := h
  obtain ⟨pre, pad, e1, e2, e3, e4⟩ := createNpyHeader_eq (ty := m.item.ty) (ws := m.item.ws) hs
  have hp0 : m.item.shape.prod ≠ 0 := by rintro e; simp [e] at h0
  rw [h4] at e2
  have e2 := Option.some.inj e2
  have hl : (headerLine '<' m.item.ty m.item.ws false m.item.shape pad).length ≤ 256 := by
    rw [e2, List.length_append, e1] at h3; omega
  rw [e2, List.append_assoc, loadNpy_line e1 (.inl rfl) hty (dim_le hp0 (by omega)) hl (by omega) (by rw [List.length_append]; omega), ← hd,
    List.take_left' rfl, List.drop_left' rfl]
  rfl

theorem entry_length (m : Member) : m.entry.length = 50 + m.item.name.length := by
  unfold Member.entry; rw [globalEntry_length, List.length_append]; simp; omega

theorem bytes_length (m : Member) : m.bytes.length = 34 + m.item.name.length + m.header.length + m.item.data.length := by
  unfold Member.bytes; rw [List.length_append, localHeader_length, List.length_append, List.length_append]; simp; omega

theorem npzLoad_archive : ∀ (ms : List Member) (fuel : ℕ) (m₀ : Member) (more : List Char), (∀ m ∈ ms, m.Fits) → ms.length < fuel →
    npzLoad fuel (body ms ++ (m₀.entry ++ more)) = some (ms.map fun m => (m.item.name, m.item.array)) := by
  intro ms
  induction ms with
  | nil =>
    intro fuel m₀ more _ hf
    obtain ⟨f, rfl⟩ : ∃ f, fuel = f + 1 := ⟨fuel - 1, by simp at hf; omega⟩
    have : npzMember (m₀.entry ++ more) = some none := npzMember_directory (by
      have := entry_length m₀
      unfold Member.entry at this
      rw [List.length_append]; omega)
    rw [npzLoad]
    show (npzMember (m₀.entry ++ more)).bind _ = _
    rw [this]; rfl
  | cons m ms ih =>
    intro fuel m₀ more hall hf
    obtain ⟨f, rfl⟩ : ∃ f, fuel = f + 1 := ⟨fuel - 1, by simp at hf; omega⟩
    have hm := hall m (by simp)
    have e : body (m :: ms) ++ (m₀.entry ++ more) = localHeader m.crc m.nbytes (m.item.name ++ ".npy".toList) ++
        (m.header ++ (m.item.data ++ (body ms ++ (m₀.entry ++ more)))) := by
      unfold body; rw [List.flatMap_cons]; unfold Member.bytes; simp only [List.append_assoc]
    obtain ⟨hg, hb⟩ := hm
    have hmem := npzMember_local (crc := m.crc) (nbytes := m.nbytes) (fname := m.item.name)
      (rest := m.header ++ (m.item.data ++ (body ms ++ (m₀.entry ++ more)))) (by have := hg.2.2.2.2.2.2.2; omega) hb.2.1
    rw [npzLoad, e, hmem]
    simp only [Option.bind_eq_bind, Option.bind_some, ne_eq, not_true, if_false]
    rw [member_load ⟨hg, hb⟩]
    simp only [Option.bind_some]
    rw [ih f m₀ more (fun x hx => hall x (by simp [hx])) (by simp at hf; omega)]
    rfl

theorem npzFind_archive (var : List Char) : ∀ (ms : List Member) (fuel : ℕ) (m₀ : Member) (more : List Char), (∀ m ∈ ms, m.Fits) → ms.length < fuel →
    npzFind var fuel (body ms ++ (m₀.entry ++ more)) = (ms.find? fun m => m.item.name = var).map fun m => m.item.array := by
  intro ms
  induction ms with
  | nil =>
    intro fuel m₀ more _ hf
    obtain ⟨f, rfl⟩ : ∃ f, fuel = f + 1 := ⟨fuel - 1, by simp at hf; omega⟩
    have : npzMember (m₀.entry ++ more) = some none := npzMember_directory (by
      have := entry_length m₀
      unfold Member.entry at this
      rw [List.length_append]; omega)
    rw [npzFind]
    show (npzMember (m₀.entry ++ more)).bind _ = _
    rw [this]; rfl
  | cons m ms ih =>
    intro fuel m₀ more hall hf
    obtain ⟨f, rfl⟩ : ∃ f, fuel = f + 1 := ⟨fuel - 1, by simp at hf; omega⟩
    have hm := hall m (by simp)
    have e : body (m :: ms) ++ (m₀.entry ++ more) = localHeader m.crc m.nbytes (m.item.name ++ ".npy".toList) ++
        (m.header ++ (m.item.data ++ (body ms ++ (m₀.entry ++ more)))) := by
      unfold body; rw [List.flatMap_cons]; unfold Member.bytes; simp only [List.append_assoc]
    obtain ⟨hg, hb⟩ := hm
    have hmem := npzMember_local (crc := m.crc) (nbytes := m.nbytes) (fname := m.item.name)
      (rest := m.header ++ (m.item.data ++ (body ms ++ (m₀.entry ++ more)))) (by have := hg.2.2.2.2.2.2.2; omega) hb.2.1
    rw [npzFind, e, hmem]
    simp only [Option.bind_eq_bind, Option.bind_some, ne_eq, not_true, if_false]
    by_cases hv : m.item.name = var
    · rw [if_pos hv]
      unfold npyLoad
      rw [member_load ⟨hg, hb⟩, List.find?_cons_of_pos (by simp [hv])]
      rfl
    · rw [if_neg hv, List.find?_cons_of_neg (by simp [hv]), ← ih f m₀ more (fun x hx => hall x (by simp [hx])) (by simp at hf; omega)]
      congr 1
      rw [← List.append_assoc, List.drop_left' (by rw [List.length_append]; omega)]

theorem body_snoc (ms : List Member) (m : Member) : body (ms ++ [m]) = body ms ++ m.bytes := by simp [body]
theorem directory_snoc (ms : List Member) (m : Member) : directory (ms ++ [m]) = directory ms ++ m.entry := by simp [directory]

/-- Members one after the other from a position on, with these positions in their entries and the checksums of their bytes. -/
def Placed (crc : List Char → ℕ) : ℕ → List Member → Prop
  | _, [] => True
  | o, m :: ms => m.offset = o ∧ m.crc = crc (m.header ++ m.item.data) ∧ Placed crc (o + m.bytes.length) ms

theorem placed_snoc {crc : List Char → ℕ} {ms : List Member} {o : ℕ} (h : Placed crc o ms) {m : Member} (h1 : m.offset = o + (body ms).length)
    (h2 : m.crc = crc (m.header ++ m.item.data)) : Placed crc o (ms ++ [m]) := by
  induction ms generalizing o with
  | nil => exact ⟨by simpa [body] using h1, h2, trivial⟩
  | cons a ms ih =>
    refine ⟨h.1, h.2.1, ih h.2.2 ?_⟩
    rw [h1]; simp [body]; omega

/-- The file that holds these members. -/
def Holds (crc : List Char → ℕ) (ms : List Member) (file : List Char) : Prop :=
  ms ≠ [] ∧ (∀ m ∈ ms, m.Fits) ∧ ∃ r, file = body ms ++ (directory ms ++ zipFooter r (directory ms).length (body ms).length) ∧
    (r + 1) % 65536 = ms.length % 65536 ∧ Placed crc 0 ms

theorem good_header {i : Saved} (h : i.Good) : ∃ header, createNpyHeader i.ty i.ws i.shape = some header ∧ header.length ≤ 266 ∧ npyBytes i.ws i.shape i.data = some i.data := by
  obtain ⟨hs, hty, h0, hp, hd, hw, hn, hname⟩ := h
  obtain ⟨pre, pad, e1, e2, e3, e4⟩ := createNpyHeader_eq (ty := i.ty) (ws := i.ws) hs
  have hp0 : i.shape.prod ≠ 0 := by rintro e; simp [e] at h0
  have h1 := tuple_length_le (dim_le hp0 (by omega))
  have h2 : (Nat.toDigits 10 i.ws).length ≤ 3 := toDigits_length_le (by omega) (by omega)
  have L := npyDict_length i.ty i.ws i.shape
  have H := header_length i.ty i.ws i.shape 0
  exact ⟨_, e2, by rw [List.length_append]; omega, npyBytes_eq hp0 (by omega) hd⟩

/-- What is written by one call. -/
def memberOf (crc : List Char → ℕ) (i : Saved) (header : List Char) (offset : ℕ) : Member :=
  ⟨i, crc (header ++ i.data), i.data.length + header.length, header, offset⟩

theorem save_first {crc : List Char → ℕ} {i : Saved} (h : i.Good) (hsz : i.data.length + 266 < 4294967296) :
    ∃ file m, npzSave crc none i.name i.ty i.ws i.shape i.data = some file ∧ m.item = i ∧ Holds crc [m] file := by
  obtain ⟨header, h1, h2, h3⟩ := good_header h
  refine ⟨_, memberOf crc i header 0, ?_, rfl, by simp, ?_, 0, rfl, rfl, rfl, rfl, trivial⟩
  · unfold npzSave
    rw [h1, h3]
    simp only [Option.bind_eq_bind, Option.bind_some]
    simp [body, directory, Member.bytes, Member.entry, memberOf, localHeader_length, globalEntry_length]
    congr 1
    omega
  · intro m hm
    simp at hm
    subst hm
    exact ⟨h, rfl, by simp only [memberOf]; omega, h2, h1⟩

theorem save_next {crc : List Char → ℕ} {i : Saved} (h : i.Good) {ms : List Member} {file : List Char} (hf : Holds crc ms file)
    (hsz : (body ms).length + (directory ms).length + i.data.length + 266 < 4294967296) :
    ∃ file' m, npzSave crc (some file) i.name i.ty i.ws i.shape i.data = some file' ∧ m.item = i ∧ Holds crc (ms ++ [m]) file' := by
  obtain ⟨header, h1, h2, h3⟩ := good_header h
  obtain ⟨hne, hfit, r, hfile, hr, hpl⟩ := hf
  have hdir : (directory ms).length ≠ 0 := by
    cases ms with
    | nil => exact absurd rfl hne
    | cons m ms =>
      have := entry_length m
      rw [directory, List.flatMap_cons, List.length_append]
      omega
  have hparse : parseZipFooter file = some ((r + 1) % 65536, (directory ms).length, (body ms).length) := by
    rw [hfile, ← List.append_assoc]
    exact parseZipFooter_eq (by omega) (by omega)
  have hflen : file.length = (body ms).length + (directory ms).length + 22 := by
    rw [hfile, List.length_append, List.length_append, zipFooter_length]; omega
  have ht : file.take (body ms).length = body ms := by rw [hfile, List.take_left' rfl]
  have hdd : (file.drop (body ms).length).take (directory ms).length = directory ms := by rw [hfile, List.drop_left' rfl, List.take_left' rfl]
  refine ⟨_, memberOf crc i header (body ms).length, ?_, rfl, by simp, ?_, (r + 1) % 65536, rfl, by rw [List.length_append]; simp; omega,
    placed_snoc hpl (by simp [memberOf]) rfl⟩
  · unfold npzSave
    rw [h1, h3]
    simp only [hparse, Option.bind_eq_bind, Option.bind_some]
    rw [if_neg (by omega)]
    simp only [ht, hdd]
    rw [List.drop_eq_nil_of_le (by
      simp only [List.length_append, localHeader_length, globalEntry_length, zipFooter_length]; omega), body_snoc, directory_snoc]
    simp only [Member.bytes, Member.entry, memberOf, List.append_assoc, List.append_nil, List.length_append, localHeader_length]
    congr 8
    omega
  · intro m hm
    rcases List.mem_append.mp hm with hm | hm
    · exact hfit m hm
    · simp at hm
      subst hm
      exact ⟨h, rfl, by simp only [memberOf]; omega, h2, h1⟩

theorem fits_length {ms : List Member} (h : ∀ m ∈ ms, m.Fits) : (body ms).length + (directory ms).length ≤ Saved.room (ms.map Member.item) := by
  induction ms with
  | nil => simp [body, directory, Saved.room]
  | cons m ms ih =>
    have h1 := ih (fun x hx => h x (by simp [hx]))
    have h2 := (h m (by simp)).2.2.2.1
    have h3 := entry_length m
    have h4 := bytes_length m
    simp only [body, directory, List.flatMap_cons, List.length_append, Saved.room, List.map_cons, List.sum_cons] at h1 ⊢
    omega

theorem save_rest {crc : List Char → ℕ} : ∀ (l : List Saved) (ms : List Member) (file : List Char), Holds crc ms file → (∀ i ∈ l, i.Good) →
    Saved.room (ms.map Member.item ++ l) < 4294967296 → ∃ file' ms', saveAll crc (some file) l = some (some file') ∧ ms'.map Member.item = ms.map Member.item ++ l ∧
      Holds crc ms' file' := by
  intro l
  induction l with
  | nil => intro ms file hf _ _; exact ⟨file, ms, rfl, by simp, hf⟩
  | cons i l ih =>
    intro ms file hf hg hsz
    have hle := fits_length hf.2.1
    have hroom : Saved.room (ms.map Member.item ++ i :: l) = Saved.room (ms.map Member.item) + (i.data.length + 2 * i.name.length + 350) + Saved.room l := by
      simp [Saved.room]; omega
    obtain ⟨file', m, h1, h2, h3⟩ := save_next (crc := crc) (hg i (by simp)) hf (by omega)
    obtain ⟨file'', ms', h4, h5, h6⟩ := ih (ms ++ [m]) file' h3 (fun j hj => hg j (by simp [hj])) (by simpa [h2] using hsz)
    exact ⟨file'', ms', by rw [saveAll, h1]; exact h4, by simpa [h2] using h5, h6⟩

theorem save_all {crc : List Char → ℕ} {l : List Saved} (hne : l ≠ []) (hg : ∀ i ∈ l, i.Good) (hsz : Saved.room l < 4294967296) :
    ∃ file ms, saveAll crc none l = some (some file) ∧ ms.map Member.item = l ∧ Holds crc ms file := by
  cases l with
  | nil => exact absurd rfl hne
  | cons i l =>
    have hroom : Saved.room (i :: l) = (i.data.length + 2 * i.name.length + 350) + Saved.room l := by simp [Saved.room]
    obtain ⟨file, m, h1, h2, h3⟩ := save_first (crc := crc) (hg i (by simp)) (by omega)
    obtain ⟨file', ms, h4, h5, h6⟩ := save_rest (crc := crc) l [m] file h3 (fun j hj => hg j (by simp [hj])) (by simpa [h2] using hsz)
    exact ⟨file', ms, by rw [saveAll, h1]; exact h4, by simpa [h2] using h5, h6⟩

theorem holds_eq {crc : List Char → ℕ} {ms : List Member} {file : List Char} (h : Holds crc ms file) : ∃ m₀ more, file = body ms ++ (Member.entry m₀ ++ more) := by
  obtain ⟨hne, -, r, hf, -⟩ := h
  cases ms with
  | nil => exact absurd rfl hne
  | cons m ms =>
    refine ⟨m, directory ms ++ zipFooter r (directory (m :: ms)).length (body (m :: ms)).length, ?_⟩
    rw [hf]
    conv_lhs => rw [show directory (m :: ms) = m.entry ++ directory ms by simp [directory]]
    simp [directory]

theorem zipEntry_member {F pre dpre X Y : List Char} {m : Member} (hm : m.Fits) (h1 : F = pre ++ (m.bytes ++ X)) (h2 : F = dpre ++ (m.entry ++ Y))
    (ho : m.offset = pre.length) (hl : pre.length < 4294967296) :
    zipEntry F dpre.length = some ((m.item.name ++ ".npy".toList, m.crc % 4294967296, m.header ++ m.item.data), dpre.length + m.entry.length) := by
  obtain ⟨hg, hb1, hb2, -⟩ := hm
  generalize hN : m.item.name ++ ".npy".toList = N
  have hNl : N.length = m.item.name.length + 4 := by rw [← hN]; simp
  have hNs : N.length < 65536 := by have := hg.2.2.2.2.2.2.2; omega
  have hE : m.entry = globalEntry (localHeader m.crc m.nbytes N) m.offset N := by unfold Member.entry; rw [hN]
  have hEl : m.entry.length = 46 + N.length := by rw [hE, globalEntry_length]
  obtain ⟨w1, w2, w3, w4, w5, w6, w7, w8⟩ := entry_words m.crc m.nbytes m.offset N Y
  rw [← hE] at w1 w2 w3 w4 w5 w6 w7 w8
  have hB : F = pre ++ (localHeader m.crc m.nbytes N ++ ((m.header ++ m.item.data) ++ X)) := by
    rw [h1]; unfold Member.bytes; rw [hN]; simp only [List.append_assoc]
  obtain ⟨v1, v2, v3⟩ := local_words m.crc m.nbytes N ((m.header ++ m.item.data) ++ X)
  have hname : (F.drop (dpre.length + 46)).take N.length = N := by
    obtain ⟨G, hG, hGl⟩ : ∃ G, m.entry = G ++ N ∧ G.length = 46 := by
      refine ⟨m.entry.take 46, ?_, by rw [List.length_take]; omega⟩
      have : m.entry.drop 46 = N := by rw [hE]; simp [globalEntry, localHeader, le16, le32]
      conv_lhs => rw [← List.take_append_drop 46 m.entry, this]
    rw [h2, hG]
    have : dpre ++ (G ++ N ++ Y) = (dpre ++ G) ++ (N ++ Y) := by simp
    rw [this, List.drop_left' (by rw [List.length_append]; omega), List.take_left' rfl]
  have hdata : (F.drop (pre.length + 30 + N.length + 0)).take m.nbytes = m.header ++ m.item.data := by
    have : F = (pre ++ localHeader m.crc m.nbytes N) ++ ((m.header ++ m.item.data) ++ X) := by rw [hB]; simp
    rw [this, List.drop_left' (by rw [List.length_append, localHeader_length]; omega), List.take_left' (by rw [List.length_append]; omega)]
  rw [Nat.mod_eq_of_lt hb2] at w4
  rw [Nat.mod_eq_of_lt hNs] at w5 v2
  rw [ho, Nat.mod_eq_of_lt hl] at w8
  unfold zipEntry
  rw [word_of (p := dpre.length) h2 0 4 rfl, w1, word_of h2 10 2 rfl, w2, word_of h2 16 4 rfl, w3, word_of h2 20 4 rfl, w4, word_of h2 28 2 rfl, w5, word_of h2 30 2 rfl, w6,
    word_of h2 32 2 rfl, w7, word_of h2 42 4 rfl, w8]
  simp only [Option.bind_eq_bind, Option.bind_some]
  rw [word_of (p := pre.length) hB 0 4 rfl, v1, word_of hB 26 2 rfl, v2, word_of hB 28 2 rfl, v3]
  simp only [Option.bind_some, hname, hdata]
  rw [if_pos ⟨trivial, trivial, trivial, trivial, by rw [List.length_append]; omega⟩, hEl]
  simp [Nat.add_assoc]

theorem zipList_members {crc : List Char → ℕ} {F : List Char} (hF : F.length < 4294967296) : ∀ (ms : List Member) (pre dpre X Y : List Char), (∀ m ∈ ms, m.Fits) →
    F = pre ++ (body ms ++ X) → F = dpre ++ (directory ms ++ Y) → Placed crc pre.length ms →
    zipList F ms.length dpre.length = some (ms.map fun m => (m.item.name ++ ".npy".toList, crc (m.header ++ m.item.data) % 4294967296, m.header ++ m.item.data)) := by
  intro ms
  induction ms with
  | nil => intros; rfl
  | cons m ms ih =>
    intro pre dpre X Y hfit h1 h2 hp
    have e1 : F = pre ++ (m.bytes ++ (body ms ++ X)) := by rw [h1]; simp [body]
    have e2 : F = dpre ++ (m.entry ++ (directory ms ++ Y)) := by rw [h2]; simp [directory]
    have hl : pre.length < 4294967296 := by rw [h1, List.length_append] at hF; omega
    rw [List.length_cons, zipList, zipEntry_member (hfit m (by simp)) e1 e2 hp.1 hl]
    have hi := ih (pre ++ m.bytes) (dpre ++ m.entry) X Y (fun x hx => hfit x (by simp [hx])) (by rw [e1]; simp) (by rw [e2]; simp)
      (by rw [List.length_append]; exact hp.2.2)
    rw [List.length_append] at hi
    simp only [Option.bind_eq_bind, Option.bind_some, hi, List.map_cons, hp.2.1]

theorem zipRead_holds {crc : List Char → ℕ} {ms : List Member} {file : List Char} (h : Holds crc ms file) (hn : ms.length < 65536)
    (hl : (body ms).length + (directory ms).length + 22 < 4294967296) :
    zipRead file = some (ms.map fun m => (m.item.name ++ ".npy".toList, crc (m.header ++ m.item.data) % 4294967296, m.header ++ m.item.data)) := by
  obtain ⟨-, hfit, r, hf, hr, hpl⟩ := h
  have e : file = (body ms ++ directory ms) ++ zipFooter r (directory ms).length (body ms).length := by rw [hf]; simp
  have hlen : file.length = (body ms ++ directory ms).length + 22 := by rw [e, List.length_append, zipFooter_length]
  have hlen' : file.length = (body ms).length + (directory ms).length + 22 := by rw [hlen, List.length_append]
  obtain ⟨f1, f2, f3⟩ := footer_words r (directory ms).length (body ms).length
  rw [hr, Nat.mod_eq_of_lt hn] at f2
  rw [Nat.mod_eq_of_lt (by omega)] at f3
  unfold zipRead
  rw [word_of (p := file.length - 22) e 0 4 (by omega), f1, word_of e 10 2 (by omega), f2, word_of e 16 4 (by omega), f3]
  simp only [Option.bind_eq_bind, Option.bind_some, if_true]
  exact zipList_members (by omega) ms [] (body ms) _ _ hfit hf hf hpl

theorem find_reverse {l : List Saved} (h : (l.map Saved.name).Nodup) (var : List Char) :
    l.reverse.find? (fun i => i.name = var) = l.find? fun i => i.name = var := by
  induction l with
  | nil => rfl
  | cons i l ih =>
    rw [List.map_cons, List.nodup_cons] at h
    rw [List.reverse_cons, List.find?_append, ih h.2]
    by_cases hv : i.name = var
    · have : l.find? (fun i => i.name = var) = none := by
        rw [List.find?_eq_none]
        intro j hj
        simp only [decide_eq_true_eq]
        intro e
        exact h.1 (List.mem_map.mpr ⟨j, hj, by rw [e, hv]⟩)
      rw [this, List.find?_cons_of_pos (by simp [hv])]
      simp [hv]
    · rw [List.find?_cons_of_neg (by simp [hv])]
      simp [hv]

theorem good_of {name : List Char} {ty : Char} {ws : ℕ} {shape : List ℕ} {data : List Char}
    (h : shape ≠ [] ∧ TypeLetter ty ∧ 0 < shape.prod * ws ∧ shape.prod < 2 ^ 31 ∧ ws < 1000 ∧ shape.length ≤ 15 ∧ name.length + 4 < 2 ^ 16)
    (hd : data.length = shape.prod * ws) : Saved.Good ⟨name, ty, ws, shape, data⟩ :=
  ⟨h.1, h.2.1, h.2.2.1, h.2.2.2.1, hd, h.2.2.2.2.1, h.2.2.2.2.2.1, h.2.2.2.2.2.2⟩

end Verif.Proofs
