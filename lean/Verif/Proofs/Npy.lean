import Verif.Model.Npy
import Verif.Spec.Npy
import Mathlib.Algebra.BigOperators.Group.List.Lemmas

/-! Lemmas about searching in the header line of a `.npy` file and about the archive written by cnpy. -/

namespace Verif.Proofs
open Verif Model Spec

theorem findSub_skip {p : Char} {ps a : List Char} (h : ∀ c ∈ a, c ≠ p) (s : List Char) :
    findSub (p :: ps) (a ++ s) = (findSub (p :: ps) s).map (· + a.length) := by
  induction a with
  | nil => simp
  | cons c a ih =>
    have hc : (p == c) = false := by simpa using (h c (by simp)).symm
    rw [List.cons_append, findSub, List.isPrefixOf, hc]
    simp only [Bool.false_and, Bool.false_eq_true, if_false]
    rw [ih (fun x hx => h x (by simp [hx])), Option.map_map]
    congr 1

theorem findSub_hit {pat : List Char} (h : pat ≠ []) (s : List Char) : findSub pat (pat ++ s) = some 0 := by
  obtain ⟨p, ps, rfl⟩ : ∃ p ps, pat = p :: ps := by cases pat with | nil => exact absurd rfl h | cons p ps => exact ⟨p, ps, rfl⟩
  have : (p :: ps).isPrefixOf (p :: (ps ++ s)) = true := by
    rw [List.isPrefixOf_iff_prefix]; exact ⟨s, by simp⟩
  rw [List.cons_append, findSub, if_pos this]

theorem findSub_at {p : Char} {ps a : List Char} (h : ∀ c ∈ a, c ≠ p) (s : List Char) :
    findSub (p :: ps) (a ++ ((p :: ps) ++ s)) = some a.length := by
  rw [findSub_skip h, findSub_hit (by simp)]; simp

theorem digit_of_mem {n : ℕ} {c : Char} (h : c ∈ Nat.toDigits 10 n) : c.isDigit = true :=
  Nat.isDigit_of_mem_toDigits (by omega) (by omega) h

theorem digits_ne {n : ℕ} {p : Char} (hp : p.isDigit = false) : ∀ c ∈ Nat.toDigits 10 n, c ≠ p := by
  intro c hc e
  have := digit_of_mem hc
  rw [e, hp] at this
  exact absurd this (by simp)

theorem digitRuns_digits {w : List Char} (h : ∀ c ∈ w, c.isDigit = true) (cur s : List Char) :
    digitRuns cur (w ++ s) = digitRuns (cur ++ w) s := by
  induction w generalizing cur with
  | nil => simp
  | cons c w ih =>
    rw [List.cons_append, digitRuns, if_pos (h c (by simp)), ih (fun x hx => h x (by simp [hx]))]
    simp

theorem digitRuns_number (n : ℕ) (s : List Char) {c : Char} (hc : c.isDigit = false) :
    digitRuns [] (Nat.toDigits 10 n ++ c :: s) = Nat.toDigits 10 n :: digitRuns [] s := by
  rw [digitRuns_digits (fun _ => digit_of_mem), List.nil_append, digitRuns, if_neg (by simp [hc]), if_neg Nat.toDigits_ne_nil]

theorem digitRuns_last (n : ℕ) : digitRuns [] (Nat.toDigits 10 n) = [Nat.toDigits 10 n] := by
  have := digitRuns_digits (w := Nat.toDigits 10 n) (fun _ => digit_of_mem) [] []
  rw [List.append_nil] at this
  rw [this, List.nil_append, digitRuns, if_neg Nat.toDigits_ne_nil]

theorem digitRuns_skip {c : Char} (hc : c.isDigit = false) (s : List Char) : digitRuns [] (c :: s) = digitRuns [] s := by
  rw [digitRuns, if_neg (by simp [hc]), if_pos rfl]

theorem digitRuns_tail (a : ℕ) (l : List ℕ) :
    digitRuns [] (Nat.toDigits 10 a ++ l.flatMap (fun d => [',', ' '] ++ Nat.toDigits 10 d)) = (a :: l).map (Nat.toDigits 10) := by
  induction l generalizing a with
  | nil => simpa using digitRuns_last a
  | cons b l ih =>
    rw [List.flatMap_cons, List.append_assoc]
    show digitRuns [] (Nat.toDigits 10 a ++ ',' :: ' ' :: (Nat.toDigits 10 b ++ _)) = _
    rw [digitRuns_number a _ (by decide), digitRuns_skip (by decide), ih b]
    rfl

theorem shapeText_eq (shape : List ℕ) : shapeText shape = tupleText shape := by
  match shape with
  | [] => rfl
  | [a] => simp [shapeText, tupleText, List.intercalate]
  | a :: b :: l =>
    have h : ∀ (a : ℕ) (l : List ℕ), Nat.toDigits 10 a ++ l.flatMap (fun d => [',', ' '] ++ Nat.toDigits 10 d) =
        List.intercalate [',', ' '] ((a :: l).map (Nat.toDigits 10)) := by
      intro a l
      induction l generalizing a with
      | nil => simp [List.intercalate]
      | cons b l ih =>
        rw [List.flatMap_cons, List.append_assoc, ih b]
        simp [List.intercalate]
    rw [shapeText, h]
    · simp [tupleText]
    · simp

theorem digitRuns_shape (shape : List ℕ) : digitRuns [] (tupleText shape) = shape.map (Nat.toDigits 10) := by
  rw [← shapeText_eq]
  match shape with
  | [] => rfl
  | [a] => rw [shapeText, digitRuns_number a [] (by decide)]; rfl
  | a :: b :: l => rw [shapeText, digitRuns_tail]; simp

theorem shape_chars {shape : List ℕ} {c : Char} (h : c ∈ tupleText shape) : c.isDigit = true ∨ c = ',' ∨ c = ' ' := by
  rw [← shapeText_eq] at h
  match shape, h with
  | [], h => simp [shapeText] at h
  | [a], h =>
    rw [shapeText] at h
    rcases List.mem_append.mp h with h | h
    · exact .inl (digit_of_mem h)
    · simp at h; simp [h]
  | a :: b :: l, h =>
    have e : shapeText (a :: b :: l) = Nat.toDigits 10 a ++ (b :: l).flatMap (fun d => [',', ' '] ++ Nat.toDigits 10 d) := by
      rw [shapeText]; simp
    rw [e] at h
    rcases List.mem_append.mp h with h | h
    · exact .inl (digit_of_mem h)
    · obtain ⟨d, _, hd⟩ := List.mem_flatMap.mp h
      rcases List.mem_append.mp hd with hd | hd
      · simp at hd; tauto
      · exact .inl (digit_of_mem hd)

theorem stoi_shape {shape : List ℕ} (h : ∀ d ∈ shape, d ≤ 2147483647) : (shape.map (Nat.toDigits 10)).mapM stoi = some shape := by
  induction shape with
  | nil => rfl
  | cons a l ih =>
    have ha : stoi (Nat.toDigits 10 a) = some a := by
      unfold stoi; rw [Nat.ofDigitChars_ten_toDigits, if_pos (h a (by simp))]
    rw [List.map_cons, List.mapM_cons, ha, ih (fun d hd => h d (by simp [hd]))]; rfl

theorem fgetsLine_line {k : ℕ} {a : List Char} (h : ∀ c ∈ a, c ≠ '\n') (hk : a.length + 1 ≤ k) (s : List Char) :
    fgetsLine k (a ++ '\n' :: s) = a ++ ['\n'] := by
  induction a generalizing k with
  | nil => obtain ⟨k, rfl⟩ : ∃ k', k = k' + 1 := ⟨k - 1, by simp at hk; omega⟩; simp [fgetsLine]
  | cons c a ih =>
    obtain ⟨k, rfl⟩ : ∃ k', k = k' + 1 := ⟨k - 1, by simp at hk; omega⟩
    rw [List.cons_append, fgetsLine, if_neg (h c (by simp)), ih (fun x hx => h x (by simp [hx])) (by simp at hk; omega)]
    rfl

theorem takeWhile_all {α : Type} {p : α → Bool} {l : List α} (h : ∀ a ∈ l, p a = true) : l.takeWhile p = l := by
  induction l with
  | nil => rfl
  | cons a l ih => rw [List.takeWhile_cons_of_pos (h a (by simp)), ih (fun x hx => h x (by simp [hx]))]

/-- The parts of the line after the first character. -/
theorem parseNpyLine_ok {order ty : Char} {ws : ℕ} {fortran : Bool} {shape : List ℕ} (ho : order = '<' ∨ order = '|') (hty : ty ≠ '(' ∧ ty ≠ ')')
    (hs : ∀ d ∈ shape, d ≤ 2147483647) (tail : List Char) :
    parseNpyLine ("'descr': '".toList ++ (order :: ty :: (Nat.toDigits 10 ws ++ ("', 'fortran_order': ".toList ++
      ((if fortran then "True" else "False").toList ++ (", 'shape': (".toList ++ (tupleText shape ++ ("), }".toList ++ tail)))))))) =
      some ⟨ws, shape, fortran⟩ := by
  have e1 : "', 'fortran_order': ".toList = "', '".toList ++ ("fortran_order".toList ++ "': ".toList) := rfl
  have e2 : ", 'shape': (".toList = ", 'shape': ".toList ++ ['('] := rfl
  have e3 : "), }".toList = [')'] ++ ", }".toList := rfl
  have e4 : "'descr': '".toList = ['\''] ++ ("descr".toList ++ "': '".toList) := rfl
  have ho' : ∀ p : Char, p ≠ '<' → p ≠ '|' → order ≠ p := by rintro p h1 h2 rfl; rcases ho with rfl | rfl <;> simp_all
  generalize hD : Nat.toDigits 10 ws = D
  have hDd : ∀ c ∈ D, c.isDigit = true := by rw [← hD]; exact fun _ => digit_of_mem
  have hDne : ∀ p : Char, p.isDigit = false → ∀ c ∈ D, c ≠ p := by rw [← hD]; exact fun p hp => digits_ne hp
  have hD0 : D ≠ [] := by rw [← hD]; exact Nat.toDigits_ne_nil
  generalize hF : (if fortran then "True" else "False").toList = F
  have hFp : ∀ c ∈ F, c ≠ '(' ∧ c ≠ ')' := by
    rw [← hF]; cases fortran <;> decide
  generalize hH : "'descr': '".toList ++ (order :: ty :: (D ++ ("', 'fortran_order': ".toList ++
      (F ++ (", 'shape': (".toList ++ (tupleText shape ++ ("), }".toList ++ tail))))))) = H
  -- fortran_order
  have f1 : findSub "fortran_order".toList H = some (D.length + 16) := by
    have : H = ("'descr': '".toList ++ [order]) ++ (ty :: (D ++ ("', '".toList ++ ("fortran_order".toList ++ ("': ".toList ++
      (F ++ (", 'shape': (".toList ++ (tupleText shape ++ ("), }".toList ++ tail))))))))) := by rw [← hH, e1]; simp
    have step : ∀ X, findSub ('f' :: "ortran_order".toList) (D ++ ("', '".toList ++ ("fortran_order".toList ++ X))) = some (D.length + 4) := by
      intro X
      rw [← List.append_assoc]
      exact (findSub_at (p := 'f') (ps := "ortran_order".toList) (a := D ++ "', '".toList) (by
        intro c hc
        rcases List.mem_append.mp hc with hc | hc
        · exact hDne 'f' (by decide) c hc
        · have : ∀ c ∈ "', '".toList, c ≠ 'f' := by decide
          exact this c hc) X).trans (by simp)
    rw [this]
    show findSub ('f' :: "ortran_order".toList) _ = _
    rw [findSub_skip (by simpa using ho' 'f' (by decide) (by decide)), findSub, if_neg, step]
    · simp
    · obtain ⟨d, D', rfl⟩ : ∃ d D', D = d :: D' := by cases D with | nil => exact absurd rfl hD0 | cons d D' => exact ⟨d, D', rfl⟩
      have hd : ('o' == d) = false := by
        have := hDne 'o' (by decide) d (by simp)
        simpa using this.symm
      show ¬ ('f' :: 'o' :: "rtran_order".toList).isPrefixOf (ty :: d :: _) = true
      simp [List.isPrefixOf, hd]
  have hlen : D.length + 32 ≤ H.length := by rw [← hH]; simp
  have f2 : ((H.drop (D.length + 32)).take 4 == "True".toList) = fortran := by
    have : H = ("'descr': '".toList ++ (order :: ty :: (D ++ "', 'fortran_order': ".toList))) ++
      (F ++ (", 'shape': (".toList ++ (tupleText shape ++ ("), }".toList ++ tail)))) := by rw [← hH]; simp
    rw [this, List.drop_left' (by simp), ← hF]
    cases fortran <;> simp
  -- parentheses
  have hpre : ∀ p, p = '(' ∨ p = ')' → ∀ c ∈ "'descr': '".toList ++ (order :: ty :: (D ++ ("', 'fortran_order': ".toList ++ (F ++ ", 'shape': ".toList)))), c ≠ p := by
    intro p hp c hc e
    subst e
    have h1 : order ≠ c := by rcases hp with rfl | rfl <;> exact ho' _ (by decide) (by decide)
    have h2 : c ∉ D := fun h => by have := hDd c h; rcases hp with rfl | rfl <;> exact absurd this (by decide)
    have h3 : c ∉ F := fun h => by have := hFp c h; tauto
    have h4 : ty ≠ c := by rcases hp with rfl | rfl; exacts [hty.1, hty.2]
    rcases hp with rfl | rfl <;> simp [h1.symm, h2, h3, h4.symm] at hc
  generalize hQ : "'descr': '".toList ++ (order :: ty :: (D ++ ("', 'fortran_order': ".toList ++ (F ++ ", 'shape': ".toList)))) = Q at hpre
  have hHQ : H = Q ++ (['('] ++ (tupleText shape ++ ([')'] ++ (", }".toList ++ tail)))) := by rw [← hH, ← hQ, e2, e3]; simp
  have f3 : findSub ['('] H = some Q.length := by rw [hHQ]; exact findSub_at (hpre _ (.inl rfl)) _
  have hT : ∀ c ∈ tupleText shape, c ≠ ')' := by
    rintro c hc rfl
    rcases shape_chars hc with h | h | h <;> exact absurd h (by decide)
  have f4 : findSub [')'] H = some (Q.length + 1 + (tupleText shape).length) := by
    have : H = (Q ++ (['('] ++ tupleText shape)) ++ ([')'] ++ (", }".toList ++ tail)) := by rw [hHQ]; simp
    rw [this]
    exact (findSub_at (p := ')') (ps := []) (a := Q ++ (['('] ++ tupleText shape)) (by
      intro c hc
      rcases List.mem_append.mp hc with hc | hc
      · exact hpre _ (.inr rfl) c hc
      · rcases List.mem_append.mp hc with hc | hc
        · simp at hc; subst hc; decide
        · exact hT c hc) _).trans (by simp; omega)
  have f5 : (H.drop (Q.length + 1)).take (tupleText shape).length = tupleText shape := by
    have : H = (Q ++ ['(']) ++ (tupleText shape ++ ([')'] ++ (", }".toList ++ tail))) := by rw [hHQ]; simp
    rw [this, List.drop_left' (by simp), List.take_left' rfl]
  -- element size
  have f6 : findSub "descr".toList H = some 1 := by
    rw [← hH, e4]
    exact (findSub_at (p := 'd') (ps := "escr".toList) (a := ['\'']) (by decide) _)
  have f7 : H[10]? = some order := by rw [← hH]; rfl
  have f8 : H.drop 12 = D ++ (['\''] ++ (", 'fortran_order': ".toList ++
      (F ++ (", 'shape': (".toList ++ (tupleText shape ++ ("), }".toList ++ tail)))))) := by rw [← hH]; rfl
  have f9 : findSub ['\''] (H.drop 12) = some D.length := by
    rw [f8]; exact findSub_at (hDne _ (by decide)) _
  have f10 : (H.drop 12).take D.length = D := by rw [f8, List.take_left' rfl]
  unfold parseNpyLine
  simp only [f1, f3, f4, f6, Option.bind_eq_bind, Option.bind_some, f7, f9, Option.getD_some, f10]
  rw [if_neg (by omega), if_pos (by omega), show D.length + 16 + 16 = D.length + 32 by omega, f2,
    show Q.length + 1 + (tupleText shape).length - Q.length - 1 = (tupleText shape).length by omega, f5, digitRuns_shape, stoi_shape hs, Option.bind_some,
    if_neg (by rcases ho with rfl | rfl <;> simp), if_neg (by omega), takeWhile_all hDd, ← hD, Nat.ofDigitChars_ten_toDigits]

theorem headerLine_eq (order ty : Char) (ws : ℕ) (fortran : Bool) (shape : List ℕ) (pad : ℕ) :
    headerLine order ty ws fortran shape pad = '{' :: ("'descr': '".toList ++ (order :: ty :: (Nat.toDigits 10 ws ++ ("', 'fortran_order': ".toList ++
      ((if fortran then "True" else "False").toList ++ (", 'shape': (".toList ++ (tupleText shape ++ ("), }".toList ++ (List.replicate pad ' ' ++ ['\n']))))))))) := by
  unfold headerLine
  have : "{'descr': '".toList = '{' :: "'descr': '".toList := rfl
  rw [this]
  simp

/-- The line without its first and its last character has neither a line feed nor a zero byte. -/
theorem headerBody_chars {order ty : Char} {ws : ℕ} {fortran : Bool} {shape : List ℕ} {pad : ℕ} (ho : order = '<' ∨ order = '|') {p : Char} (hty : ty ≠ p)
    (hp : p = '\n' ∨ p = Char.ofNat 0) :
    ∀ c ∈ "'descr': '".toList ++ (order :: ty :: (Nat.toDigits 10 ws ++ ("', 'fortran_order': ".toList ++
      ((if fortran then "True" else "False").toList ++ (", 'shape': (".toList ++ (tupleText shape ++ ("), }".toList ++ List.replicate pad ' '))))))), c ≠ p := by
  intro c hc e
  subst e
  have h1 : order ≠ c := by rcases hp with rfl | rfl <;> rcases ho with rfl | rfl <;> decide
  have h2 : c ∉ Nat.toDigits 10 ws := fun h => by have := digit_of_mem h; rcases hp with rfl | rfl <;> exact absurd this (by decide)
  have h3 : c ∉ (if fortran then "True" else "False").toList := by cases fortran <;> rcases hp with rfl | rfl <;> decide
  have h4 : c ∉ tupleText shape := fun h => by
    rcases shape_chars h with h | h | h <;> rcases hp with rfl | rfl <;> exact absurd h (by decide)
  have h5 : c ∉ List.replicate pad ' ' := fun h => by
    have := List.eq_of_mem_replicate h
    rcases hp with rfl | rfl <;> exact absurd this (by decide)
  have h6 : c ∉ "'descr': '".toList := by rcases hp with rfl | rfl <;> decide
  have h7 : c ∉ "', 'fortran_order': ".toList := by rcases hp with rfl | rfl <;> decide
  have h8 : c ∉ ", 'shape': (".toList := by rcases hp with rfl | rfl <;> decide
  have h9 : c ∉ "), }".toList := by rcases hp with rfl | rfl <;> decide
  simp only [List.mem_append, List.mem_cons, h2, h3, h4, h5, h6, h7, h8, h9, or_false, false_or] at hc
  rcases hc with hc | hc
  exacts [h1 hc.symm, hty hc.symm]

theorem parseNpyHeader_line {pre data : List Char} {order ty : Char} {ws : ℕ} {fortran : Bool} {shape : List ℕ} {pad : ℕ} (hpre : pre.length = 10)
    (ho : order = '<' ∨ order = '|') (hty : ty ≠ '(' ∧ ty ≠ ')' ∧ ty ≠ '\n' ∧ ty ≠ Char.ofNat 0) (hs : ∀ d ∈ shape, d ≤ 2147483647)
    (hl : (headerLine order ty ws fortran shape pad).length ≤ 256) :
    parseNpyHeader (pre ++ (headerLine order ty ws fortran shape pad ++ data)) = some (⟨ws, shape, fortran⟩, data) := by
  rw [headerLine_eq] at hl ⊢
  generalize hB : "'descr': '".toList ++ (order :: ty :: (Nat.toDigits 10 ws ++ ("', 'fortran_order': ".toList ++
      ((if fortran then "True" else "False").toList ++ (", 'shape': (".toList ++ (tupleText shape ++ ("), }".toList ++ List.replicate pad ' '))))))) = B
  have hB' : "'descr': '".toList ++ (order :: ty :: (Nat.toDigits 10 ws ++ ("', 'fortran_order': ".toList ++
      ((if fortran then "True" else "False").toList ++ (", 'shape': (".toList ++ (tupleText shape ++ ("), }".toList ++ (List.replicate pad ' ' ++ ['\n'])))))))) =
      B ++ ['\n'] := by rw [← hB]; simp
  have hc1 : ∀ c ∈ B, c ≠ '\n' := by rw [← hB]; exact headerBody_chars ho hty.2.2.1 (.inl rfl)
  have hc2 : ∀ c ∈ B, c ≠ Char.ofNat 0 := by rw [← hB]; exact headerBody_chars ho hty.2.2.2 (.inr rfl)
  rw [hB'] at hl ⊢
  have hl' : B.length + 1 ≤ 255 := by simp at hl; omega
  have hd : (pre ++ ('{' :: (B ++ ['\n']) ++ data)).drop 11 = B ++ '\n' :: data := by
    have : pre ++ ('{' :: (B ++ ['\n']) ++ data) = (pre ++ ['{']) ++ (B ++ '\n' :: data) := by simp
    rw [this, List.drop_left' (by simp [hpre])]
  unfold parseNpyHeader
  simp only [hd, fgetsLine_line hc1 hl' data]
  rw [if_neg (by simp; omega), takeWhile_all (by
    intro c hc
    rcases List.mem_append.mp hc with hc | hc
    · simpa using hc2 c hc
    · simp at hc; subst hc; decide), if_neg (by simp), ← hB', parseNpyLine_ok ho ⟨hty.1, hty.2.1⟩ hs, hB']
  have : (B ++ '\n' :: data).drop (B ++ ['\n']).length = data := by
    have : B ++ '\n' :: data = (B ++ ['\n']) ++ data := by simp
    rw [this, List.drop_left' rfl]
  simp only [this]
  rfl

theorem loadNpy_line {pre data : List Char} {order ty : Char} {ws : ℕ} {fortran : Bool} {shape : List ℕ} {pad : ℕ} (hpre : pre.length = 10)
    (ho : order = '<' ∨ order = '|') (hty : ty ≠ '(' ∧ ty ≠ ')' ∧ ty ≠ '\n' ∧ ty ≠ Char.ofNat 0) (hs : ∀ d ∈ shape, d ≤ 2147483647)
    (hl : (headerLine order ty ws fortran shape pad).length ≤ 256) (h0 : shape.prod * ws ≠ 0) (hn : shape.prod * ws ≤ data.length) :
    loadNpy (pre ++ (headerLine order ty ws fortran shape pad ++ data)) =
      some (⟨shape, ws, fortran, data.take (shape.prod * ws)⟩, data.drop (shape.prod * ws)) := by
  unfold loadNpy
  rw [parseNpyHeader_line hpre ho hty hs hl]
  simp only [Option.bind_eq_bind, Option.bind_some]
  rw [if_neg h0, if_neg (by omega)]

theorem npyDict_line (ty : Char) (ws : ℕ) (shape : List ℕ) (pad : ℕ) :
    npyDict ty ws shape ++ (List.replicate pad ' ' ++ ['\n']) = headerLine '<' ty ws false shape pad := by
  unfold npyDict; rw [headerLine_eq, shapeText_eq]
  have e1 : "{'descr': '<".toList = '{' :: ("'descr': '".toList ++ ['<']) := rfl
  have e2 : "', 'fortran_order': False, 'shape': (".toList = "', 'fortran_order': ".toList ++ ("False".toList ++ ", 'shape': (".toList) := rfl
  rw [e1, e2]
  simp only [List.append_assoc, List.cons_append, List.nil_append, Bool.false_eq_true, if_false]

theorem createNpyHeader_format {ty : Char} {ws : ℕ} {shape : List ℕ} (h : shape ≠ []) : ∃ pad : ℕ,
    createNpyHeader ty ws shape = some (([Char.ofNat 147] ++ ("NUMPY".toList ++ ([Char.ofNat 1, Char.ofNat 0] ++
      le16 (headerLine '<' ty ws false shape pad).length))) ++ headerLine '<' ty ws false shape pad) ∧
    (headerLine '<' ty ws false shape pad).length = (npyDict ty ws shape).length + pad + 1 ∧ pad + 1 = 16 - (10 + (npyDict ty ws shape).length) % 16 := by
  refine ⟨16 - (10 + (npyDict ty ws shape).length) % 16 - 1, ?_, ?_, by omega⟩
  · unfold createNpyHeader
    rw [if_neg h, ← npyDict_line]
    simp
  · rw [← npyDict_line]; simp; omega

/-- The header that cnpy writes is the preamble and a line of the format. -/
theorem createNpyHeader_eq {ty : Char} {ws : ℕ} {shape : List ℕ} (h : shape ≠ []) : ∃ (pre : List Char) (pad : ℕ), pre.length = 10 ∧
    createNpyHeader ty ws shape = some (pre ++ headerLine '<' ty ws false shape pad) ∧ (headerLine '<' ty ws false shape pad).length = (npyDict ty ws shape).length + pad + 1 ∧
    pad + 1 = 16 - (10 + (npyDict ty ws shape).length) % 16 := by
  obtain ⟨pad, h1, h2, h3⟩ := createNpyHeader_format (ty := ty) (ws := ws) h
  exact ⟨_, pad, by simp [le16], h1, h2, h3⟩

theorem npyDict_length (ty : Char) (ws : ℕ) (shape : List ℕ) : (npyDict ty ws shape).length + 1 = (headerLine '<' ty ws false shape 0).length := by
  unfold npyDict; rw [headerLine_eq, shapeText_eq]
  have e1 : "{'descr': '<".toList.length = 12 := rfl
  have e2 : "', 'fortran_order': False, 'shape': (".toList.length = 37 := rfl
  have e3 : "'descr': '".toList.length = 10 := rfl
  have e4 : "', 'fortran_order': ".toList.length = 20 := rfl
  have e5 : "False".toList.length = 5 := rfl
  have e6 : ", 'shape': (".toList.length = 12 := rfl
  simp only [List.length_append, List.length_cons, List.length_nil, List.length_replicate, e1, e2, e3, e4, e5, e6, Bool.false_eq_true, if_false]
  omega

theorem npyCount_eq {shape : List ℕ} (h0 : shape.prod ≠ 0) (h : shape.prod < 2147483648) : npyCount shape = (shape.prod : ℤ) := by
  have : ∀ (l : List ℕ) (a : ℕ), a * l.prod ≠ 0 → a * l.prod < 2147483648 →
      l.foldl (fun (acc : ℤ) (d : ℕ) => Int.bmod (acc * (d : ℤ)) 4294967296) (a : ℤ) = ((a * l.prod : ℕ) : ℤ) := by
    intro l
    induction l with
    | nil => intro a _ _; simp
    | cons d l ih =>
      intro a h0 h
      rw [List.prod_cons, ← mul_assoc] at h0 h
      have hle : a * d ≤ a * d * l.prod := Nat.le_mul_of_pos_right _ (Nat.pos_of_ne_zero (by rintro e; simp [e] at h0))
      have e : Int.bmod ((a : ℤ) * (d : ℤ)) 4294967296 = ((a * d : ℕ) : ℤ) := by
        push_cast
        have h1 : (a : ℤ) * d < 2147483648 := by exact_mod_cast lt_of_le_of_lt hle h
        have h2 : 0 ≤ (a : ℤ) * d := by positivity
        exact Int.bmod_eq_of_le (by omega) (by omega)
      rw [List.foldl_cons, e, ih (a * d) h0 h, List.prod_cons, mul_assoc]
  simpa [npyCount] using this shape 1 (by simpa using h0) (by simpa using h)

theorem npyBytes_eq {ws : ℕ} {shape : List ℕ} {data : List Char} (h0 : shape.prod ≠ 0) (h : shape.prod < 2147483648) (hd : data.length = shape.prod * ws) :
    npyBytes ws shape data = some data := by
  unfold npyBytes
  simp only [npyCount_eq h0 h]
  rw [if_pos ⟨by positivity, by simp [hd]⟩]
  simp [← hd]

theorem dim_le {shape : List ℕ} (h0 : shape.prod ≠ 0) (h : shape.prod < 2147483648) : ∀ d ∈ shape, d ≤ 2147483647 := by
  intro d hd
  have := Nat.le_of_dvd (Nat.pos_of_ne_zero h0) (List.dvd_prod hd)
  omega

theorem toDigits_length_le {n k : ℕ} (hk : 0 < k) (h : n < 10 ^ k) : (Nat.toDigits 10 n).length ≤ k := by
  exact (Nat.length_toDigits_le_iff (by omega) hk).mpr h

end Verif.Proofs
