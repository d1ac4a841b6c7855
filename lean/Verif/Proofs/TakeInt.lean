import Verif.Model.TakeInt
import Verif.Proofs.Npy
import Verif.Spec.TakeInt

namespace Verif.Proofs
open Verif Model Spec

theorem plain_space {c : Char} (h : Plain c) : pySpace c = cSpace c := by
  have h2 := h.2
  unfold pySpace
  by_cases h3 : 28 ≤ c.toNat
  · have h4 : ¬ c.toNat ≤ 31 := fun h4 => h2 ⟨h3, h4⟩
    simp [h4]
  · simp [h3]

theorem digit_not_space {c : Char} (h : c.isDigit = true) : cSpace c = false := by
  have h1 := h
  simp only [Char.isDigit, Bool.and_eq_true, decide_eq_true_eq, ge_iff_le] at h1
  have h2 : 48 ≤ c.toNat := h1.1
  unfold cSpace
  have h3 : (c == ' ') = false := by
    rw [beq_eq_false_iff_ne]; rintro rfl; simp at h
  rw [h3]
  simp
  omega

theorem pyDigits_plain {s : List Char} (hs : ∀ c ∈ s, c ≠ '_') {acc n : ℕ} (h : pyDigits acc s = some n) :
    (∀ c ∈ s, c.isDigit = true) ∧ n = Nat.ofDigitChars 10 s acc := by
  induction s generalizing acc with
  | nil => simp [pyDigits] at h; exact ⟨by simp, by simp [h]⟩
  | cons c s ih =>
    have hc : c ≠ '_' := hs c (by simp)
    unfold pyDigits at h
    split at h
    · simp_all
    · rename_i heq
      simp only [List.cons.injEq] at heq
      exact absurd heq.1 hc
    · rename_i c' s' _ heq
      simp only [List.cons.injEq] at heq
      obtain ⟨rfl, rfl⟩ := heq
      split at h
      · rename_i hd
        obtain ⟨h1, h2⟩ := ih (fun d hd => hs d (by simp [hd])) h
        refine ⟨?_, ?_⟩
        · intro d hd'
          simp only [List.mem_cons] at hd'
          rcases hd' with rfl | hd'
          · exact hd
          · exact h1 d hd'
        · rw [h2, Nat.ofDigitChars_cons]
      · simp at h

theorem pyNat_plain {s : List Char} (hs : ∀ c ∈ s, c ≠ '_') {n : ℕ} (h : pyNat s = some n) :
    s ≠ [] ∧ (∀ c ∈ s, c.isDigit = true) ∧ n = Nat.ofDigitChars 10 s 0 := by
  cases s with
  | nil => simp [pyNat] at h
  | cons c s =>
    unfold pyNat at h
    simp only at h
    split at h
    · rename_i hd
      obtain ⟨h1, h2⟩ := pyDigits_plain (fun d hd => hs d (by simp [hd])) h
      refine ⟨by simp, ?_, ?_⟩
      · intro d hd'
        simp only [List.mem_cons] at hd'
        rcases hd' with rfl | hd'
        · exact hd
        · exact h1 d hd'
      · rw [h2, Nat.ofDigitChars_cons]; simp
    · simp at h

theorem strip_split (w : List Char) : ∃ a b : List Char, w = a ++ pyStrip w ++ b ∧ (∀ c ∈ a, pySpace c = true) ∧ ∀ c ∈ b, pySpace c = true := by
  refine ⟨w.takeWhile pySpace, ((w.dropWhile pySpace).reverse.takeWhile pySpace).reverse, ?_, ?_, ?_⟩
  · unfold pyStrip
    rw [List.append_assoc, ← List.reverse_append, List.takeWhile_append_dropWhile, List.reverse_reverse, List.takeWhile_append_dropWhile]
  · intro c hc
    exact List.all_eq_true.mp List.all_takeWhile c hc
  · intro c hc
    rw [List.mem_reverse] at hc
    exact List.all_eq_true.mp List.all_takeWhile c hc

theorem cutSign_digit {c : Char} (h : c.isDigit = true) (s : List Char) : cutSign (c :: s) = (false, c :: s) := by
  unfold cutSign
  split
  · rename_i heq
    simp only [List.cons.injEq] at heq
    rw [heq.1] at h
    simp at h
  · rename_i heq
    simp only [List.cons.injEq] at heq
    rw [heq.1] at h
    simp at h
  · rfl

theorem cutSign_cases (s : List Char) : s = '+' :: (cutSign s).2 ∧ (cutSign s).1 = false ∨ s = '-' :: (cutSign s).2 ∧ (cutSign s).1 = true ∨
    s = (cutSign s).2 ∧ (cutSign s).1 = false := by
  unfold cutSign
  split <;> simp

/-- A number between spaces that is followed by a comma or nothing. -/
theorem readInt_item {w rest : List Char} (hp : ∀ c ∈ w, Plain c) {v : ℤ} (hv : pyInt w = some v) (hr : rest = [] ∨ ∃ r, rest = ',' :: r) :
    (if -2147483648 ≤ v ∧ v ≤ 2147483647 then ∃ b : List Char, (∀ c ∈ b, cSpace c = true) ∧ readInt (w ++ rest) = some (v, b ++ rest)
      else readInt (w ++ rest) = none) := by
  obtain ⟨a, b, hw, ha, hb⟩ := strip_split w
  have hmem : ∀ c, c ∈ a ∨ c ∈ pyStrip w ∨ c ∈ b → Plain c := by
    intro c hc
    apply hp
    rw [hw]
    simp only [List.mem_append]
    tauto
  have ha' : ∀ c ∈ a, cSpace c = true := fun c hc => by rw [← plain_space (hmem c (.inl hc))]; exact ha c hc
  have hb' : ∀ c ∈ b, cSpace c = true := fun c hc => by rw [← plain_space (hmem c (.inr (.inr hc)))]; exact hb c hc
  obtain ⟨core, hcore⟩ : ∃ core, core = pyStrip w := ⟨_, rfl⟩
  unfold pyInt at hv
  rw [← hcore] at hv hw
  have hcm : ∀ c ∈ core, c ≠ '_' := fun c hc => (hmem c (.inr (.inl (hcore ▸ hc)))).1
  obtain ⟨t, ht⟩ : ∃ t, t = (cutSign core).2 := ⟨_, rfl⟩
  obtain ⟨neg, hneg⟩ : ∃ neg, neg = (cutSign core).1 := ⟨_, rfl⟩
  have hv' : (pyNat t).map (signed neg) = some v := by rw [ht, hneg]; exact hv
  rw [Option.map_eq_some_iff] at hv'
  obtain ⟨n, hn, hnv⟩ := hv'
  have htm : ∀ c ∈ t, c ≠ '_' := by
    intro c hc
    apply hcm
    rcases cutSign_cases core with h | h | h <;> rw [h.1, ← ht] <;> simp [hc]
  obtain ⟨h1, h2, h3⟩ := pyNat_plain htm hn
  -- what follows the digits is no digit
  have hstop : ∀ x, (b ++ rest).head? = some x → x.isDigit = false := by
    intro x hx
    cases b with
    | nil =>
      rcases hr with rfl | ⟨r, rfl⟩
      · simp at hx
      · simp at hx; subst hx; rfl
    | cons y b =>
      simp at hx; subst hx
      have := hb' y (by simp)
      by_contra hd
      rw [digit_not_space (by simpa using hd)] at this
      simp at this
  have htake : (t ++ (b ++ rest)).takeWhile Char.isDigit = t := by
    rw [List.takeWhile_append_of_pos h2]
    cases hbr : b ++ rest with
    | nil => simp
    | cons x l =>
      have := hstop x (by rw [hbr]; rfl)
      simp [this]
  have hdrop : ∀ sg : List Char, sg ++ t ≠ [] → (∀ x, (sg ++ t).head? = some x → cSpace x = false) →
      (a ++ (sg ++ t) ++ b ++ rest).dropWhile cSpace = sg ++ (t ++ (b ++ rest)) := by
    intro sg hne hx
    rw [List.append_assoc, List.append_assoc, List.dropWhile_append_of_pos ha']
    cases hsg : sg ++ t with
    | nil => exact absurd hsg hne
    | cons x l =>
      have := hx x (by rw [hsg]; rfl)
      rw [List.cons_append, List.dropWhile_cons_of_neg (by simp [this]), ← List.cons_append, ← hsg, List.append_assoc]
  have hcut : cutSign ((w ++ rest).dropWhile cSpace) = (neg, t ++ (b ++ rest)) := by
    obtain ⟨x, l, hxl⟩ : ∃ x l, t = x :: l := by
      cases t with
      | nil => exact absurd rfl h1
      | cons x l => exact ⟨x, l, rfl⟩
    have hxd : x.isDigit = true := h2 x (by simp [hxl])
    rcases cutSign_cases core with h | h | h
    · have hc : core = ['+'] ++ t := by rw [ht]; exact h.1
      rw [hw, hc, hdrop ['+'] (by simp) (by intro y hy; simp at hy; subst hy; rfl), hneg, h.2]
      rfl
    · have hc : core = ['-'] ++ t := by rw [ht]; exact h.1
      rw [hw, hc, hdrop ['-'] (by simp) (by intro y hy; simp at hy; subst hy; rfl), hneg, h.2]
      rfl
    · have hc : core = [] ++ t := by rw [ht]; exact h.1
      rw [hw, hc, hdrop [] (by simpa using h1) (by intro y hy; simp [hxl] at hy; subst hy; exact digit_not_space hxd), hneg, h.2]
      rw [hxl]
      exact cutSign_digit hxd _
  unfold readInt
  simp only [hcut, htake, if_neg h1, ← h3, hnv]
  split
  · exact ⟨b, hb', by simp⟩
  · rfl

theorem splitComma_none {w : List Char} (h : ∀ c ∈ w, c ≠ ',') : splitComma w = [w] := by
  induction w with
  | nil => rfl
  | cons c w ih =>
    unfold splitComma
    rw [if_neg (h c (by simp)), ih (fun d hd => h d (by simp [hd]))]

theorem splitComma_cut {w : List Char} (h : ∀ c ∈ w, c ≠ ',') (r : List Char) : splitComma (w ++ ',' :: r) = w :: splitComma r := by
  induction w with
  | nil => simp [splitComma]
  | cons c w ih =>
    rw [List.cons_append, splitComma, if_neg (h c (by simp)), ih (fun d hd => h d (by simp [hd]))]

theorem comma_cases (s : List Char) : (∀ c ∈ s, c ≠ ',') ∨ ∃ w r, s = w ++ ',' :: r ∧ ∀ c ∈ w, c ≠ ',' := by
  induction s with
  | nil => exact .inl (by simp)
  | cons c s ih =>
    by_cases hc : c = ','
    · exact .inr ⟨[], s, by simp [hc], by simp⟩
    · rcases ih with h | ⟨w, r, rfl, h⟩
      · left
        intro d hd
        simp only [List.mem_cons] at hd
        rcases hd with rfl | hd
        · exact hc
        · exact h d hd
      · refine .inr ⟨c :: w, r, rfl, ?_⟩
        intro d hd
        simp only [List.mem_cons] at hd
        rcases hd with rfl | hd
        · exact hc
        · exact h d hd

theorem dropWhile_stop {b rest : List Char} (hb : ∀ c ∈ b, cSpace c = true) (hr : rest = [] ∨ ∃ r, rest = ',' :: r) :
    (b ++ rest).dropWhile cSpace = rest := by
  rw [List.dropWhile_append_of_pos hb]
  rcases hr with rfl | ⟨r, rfl⟩
  · rfl
  · rw [List.dropWhile_cons_of_neg (by decide)]

/-- The native reader returns the numbers Python reads up to the first one that is no `int`. -/
theorem takeIntGo_eq {k : ℕ} {s : List Char} (hk : s.length ≤ k) (hp : ∀ c ∈ s, Plain c) {l : List ℤ} (h : pyUnits s = some l) :
    takeIntGo k s = l.takeWhile (fun v => decide (-2147483648 ≤ v ∧ v ≤ 2147483647)) := by
  induction k generalizing s l with
  | zero =>
    have : s = [] := by simpa using hk
    subst this
    simp [pyUnits, splitComma, pyInt, pyStrip, cutSign, pyNat] at h
  | succ k ih =>
    rcases comma_cases s with hn | ⟨w, r, rfl, hn⟩
    · unfold pyUnits at h
      rw [splitComma_none hn] at h
      simp only [List.mapM_cons, List.mapM_nil, Option.pure_def, Option.bind_eq_bind, Option.bind_eq_some_iff] at h
      obtain ⟨v, hv, l', hl', h⟩ := h
      simp only [Option.some.injEq] at hl' h
      subst hl' h
      have := readInt_item hp hv (rest := []) (.inl rfl)
      rw [List.append_nil] at this
      unfold takeIntGo
      split at this
      · rename_i hi
        obtain ⟨b, hb, hr⟩ := this
        rw [hr]
        simp only [dropWhile_stop hb (.inl rfl)]
        simp [hi]
      · rename_i hi
        rw [this]
        rw [List.takeWhile_cons_of_neg (by simpa using hi)]
    · unfold pyUnits at h
      rw [splitComma_cut hn] at h
      simp only [List.mapM_cons, Option.pure_def, Option.bind_eq_bind, Option.bind_eq_some_iff] at h
      obtain ⟨v, hv, l', hl', h⟩ := h
      simp only [Option.some.injEq] at h
      subst h
      have hr : (',' :: r : List Char) = [] ∨ ∃ r', (',' :: r : List Char) = ',' :: r' := .inr ⟨r, rfl⟩
      have := readInt_item (fun c hc => hp c (by simp [hc])) hv hr
      unfold takeIntGo
      split at this
      · rename_i hi
        obtain ⟨b, hb, hr'⟩ := this
        rw [hr']
        simp only [dropWhile_stop hb hr]
        rw [List.takeWhile_cons_of_pos (by simpa using hi), ih (s := r) _ (fun c hc => hp c (by simp [hc])) hl']
        simp at hk
        omega
      · rename_i hi
        rw [this]
        rw [List.takeWhile_cons_of_neg (by simpa using hi)]

theorem pyDigits_digits {s : List Char} (hs : ∀ c ∈ s, c.isDigit = true) (acc : ℕ) : pyDigits acc s = some (Nat.ofDigitChars 10 s acc) := by
  induction s generalizing acc with
  | nil => simp [pyDigits]
  | cons c s ih =>
    have hc := hs c (by simp)
    unfold pyDigits
    split
    · simp_all
    · rename_i heq
      simp only [List.cons.injEq] at heq
      rw [heq.1] at hc
      simp at hc
    · rename_i c' s' _ heq
      simp only [List.cons.injEq] at heq
      obtain ⟨rfl, rfl⟩ := heq
      rw [if_pos hc, ih (fun d hd => hs d (by simp [hd])), Nat.ofDigitChars_cons]

theorem pyNat_toDigits (n : ℕ) : pyNat (Nat.toDigits 10 n) = some n := by
  have h1 : Nat.ofDigitChars 10 (Nat.toDigits 10 n) 0 = n := Nat.ofDigitChars_toDigits (by omega) (by omega)
  have h2 : ∀ c ∈ Nat.toDigits 10 n, c.isDigit = true := fun c hc => digit_of_mem hc
  cases h : Nat.toDigits 10 n with
  | nil =>
    have := Nat.length_toDigits_pos (b := 10) (n := n)
    rw [h] at this
    simp at this
  | cons c s =>
    rw [h] at h1 h2
    rw [pyNat, if_pos (h2 c (by simp)), pyDigits_digits (fun d hd => h2 d (by simp [hd]))]
    rw [Nat.ofDigitChars_cons] at h1
    simpa using h1

theorem dropWhile_none {p : Char → Bool} {s : List Char} (h : ∀ c ∈ s, p c = false) : s.dropWhile p = s := by
  cases s with
  | nil => rfl
  | cons c s => rw [List.dropWhile_cons_of_neg (by simp [h c (by simp)])]

theorem pyStrip_none {s : List Char} (h : ∀ c ∈ s, pySpace c = false) : pyStrip s = s := by
  unfold pyStrip
  rw [dropWhile_none h, dropWhile_none (by simpa using h), List.reverse_reverse]

theorem digit_plain {c : Char} (h : c.isDigit = true) : Plain c := by
  refine ⟨by rintro rfl; simp at h, ?_⟩
  simp only [Char.isDigit, Bool.and_eq_true, decide_eq_true_eq, ge_iff_le] at h
  have h2 : 48 ≤ c.toNat := h.1
  omega

theorem intText_chars {v : ℤ} {c : Char} (h : c ∈ intText v) : c.isDigit = true ∨ c = '-' := by
  unfold intText at h
  split at h
  · simp only [List.mem_cons] at h
    rcases h with rfl | h
    · exact .inr rfl
    · exact .inl (digit_of_mem h)
  · exact .inl (digit_of_mem h)

theorem intText_space {v : ℤ} {c : Char} (h : c ∈ intText v) : pySpace c = false := by
  rcases intText_chars h with hd | rfl
  · rw [plain_space (digit_plain hd), digit_not_space hd]
  · decide

theorem pyInt_intText (v : ℤ) : pyInt (intText v) = some v := by
  unfold pyInt
  rw [pyStrip_none (fun c hc => intText_space hc)]
  unfold intText
  by_cases h : v < 0
  · rw [if_pos h]
    simp only [cutSign, pyNat_toDigits, Option.map_some, signed, if_true]
    congr 1
    omega
  · rw [if_neg h]
    cases hd : Nat.toDigits 10 v.natAbs with
    | nil =>
      have := Nat.length_toDigits_pos (b := 10) (n := v.natAbs)
      rw [hd] at this
      simp at this
    | cons c s =>
      have hc : c.isDigit = true := digit_of_mem (n := v.natAbs) (by rw [hd]; simp)
      rw [cutSign_digit hc]
      simp only [← hd, pyNat_toDigits, Option.map_some, signed, Bool.false_eq_true, if_false]
      congr 1
      omega

theorem intText_comma {v : ℤ} : ∀ c ∈ intText v, c ≠ ',' := by
  intro c hc
  rcases intText_chars hc with hd | rfl
  · rintro rfl; simp at hd
  · decide

theorem pyUnits_commaText {l : List ℤ} (h : l ≠ []) : pyUnits (commaText l) = some l := by
  unfold pyUnits
  induction l with
  | nil => exact absurd rfl h
  | cons v l ih =>
    cases l with
    | nil => simp [commaText, splitComma_none intText_comma, pyInt_intText]
    | cons u l =>
      unfold commaText
      rw [splitComma_cut intText_comma]
      simp [List.mapM_cons, pyInt_intText, ih]

theorem commaText_plain (l : List ℤ) : ∀ c ∈ commaText l, Plain c := by
  induction l with
  | nil => simp [commaText]
  | cons v l ih =>
    have h1 : ∀ c ∈ intText v, Plain c := by
      intro c hc
      rcases intText_chars hc with hd | rfl
      · exact digit_plain hd
      · exact ⟨by decide, by decide⟩
    cases l with
    | nil => simpa [commaText] using h1
    | cons u l =>
      unfold commaText
      intro c hc
      simp only [List.mem_append, List.mem_cons] at hc
      rcases hc with hc | rfl | hc
      · exact h1 c hc
      · exact ⟨by decide, by decide⟩
      · exact ih c hc

theorem blank_space {c : Char} (h : Blank c) : pySpace c = true ∧ c ≠ ',' ∧ Plain c := by
  unfold Blank at h
  simp only [List.mem_cons, List.not_mem_nil, or_false] at h
  rcases h with rfl | rfl | rfl | rfl | rfl | rfl <;> exact ⟨by decide, by decide, by decide, by decide⟩

theorem intText_ends (v : ℤ) : ∃ c s s' d, intText v = c :: s ∧ intText v = s' ++ [d] := by
  have hne : intText v ≠ [] := by
    unfold intText
    split
    · simp
    · intro h
      have := Nat.length_toDigits_pos (b := 10) (n := v.natAbs)
      rw [h] at this
      simp at this
  obtain ⟨c, s, e⟩ := List.exists_cons_of_ne_nil hne
  exact ⟨c, s, (intText v).dropLast, (intText v).getLast hne, e, (List.dropLast_append_getLast hne).symm⟩

theorem pyStrip_padded {a b : List Char} (ha : ∀ c ∈ a, Blank c) (hb : ∀ c ∈ b, Blank c) (v : ℤ) : pyStrip (a ++ intText v ++ b) = intText v := by
  obtain ⟨c, s, s', d, e1, e2⟩ := intText_ends v
  have hc : pySpace c = false := intText_space (v := v) (by rw [e1]; simp)
  have hd : pySpace d = false := intText_space (v := v) (by rw [e2]; simp)
  unfold pyStrip
  have h1 : (a ++ intText v ++ b).dropWhile pySpace = intText v ++ b := by
    rw [List.append_assoc, List.dropWhile_append_of_pos fun c hc => (blank_space (ha c hc)).1, e1, List.cons_append, List.dropWhile_cons_of_neg (by simp [hc])]
  have h2 : (intText v ++ b).reverse.dropWhile pySpace = (intText v).reverse := by
    rw [List.reverse_append, List.dropWhile_append_of_pos fun c hc => (blank_space (hb c (List.mem_reverse.mp hc))).1, e2, List.reverse_append, List.reverse_singleton,
      List.singleton_append, List.dropWhile_cons_of_neg (by simp [hd])]
  rw [h1, h2, List.reverse_reverse]

theorem pyInt_padded {a b : List Char} (ha : ∀ c ∈ a, Blank c) (hb : ∀ c ∈ b, Blank c) (v : ℤ) : pyInt (a ++ intText v ++ b) = some v := by
  have h := pyInt_intText v
  unfold pyInt at h ⊢
  rw [pyStrip_none (fun c hc => intText_space hc)] at h
  rw [pyStrip_padded ha hb]
  exact h

theorem padded_comma {a b : List Char} (ha : ∀ c ∈ a, Blank c) (hb : ∀ c ∈ b, Blank c) (v : ℤ) : ∀ c ∈ a ++ intText v ++ b, c ≠ ',' ∧ Plain c := by
  intro c hc
  simp only [List.mem_append] at hc
  rcases hc with (hc | hc) | hc
  · exact (blank_space (ha c hc)).2
  · refine ⟨intText_comma c hc, ?_⟩
    rcases intText_chars hc with hd | rfl
    · exact digit_plain hd
    · exact ⟨by decide, by decide⟩
  · exact (blank_space (hb c hc)).2

theorem pyUnits_padded {l : List (List Char × ℤ × List Char)} (h : l ≠ []) (hp : ∀ p ∈ l, (∀ c ∈ p.1, Blank c) ∧ ∀ c ∈ p.2.2, Blank c) :
    pyUnits (paddedText l) = some (l.map (fun p => p.2.1)) ∧ ∀ c ∈ paddedText l, Plain c := by
  unfold pyUnits
  induction l with
  | nil => exact absurd rfl h
  | cons p l ih =>
    obtain ⟨ha, hb⟩ := hp p (by simp)
    have hc := padded_comma ha hb p.2.1
    cases l with
    | nil =>
      unfold paddedText
      rw [splitComma_none fun c hc' => (hc c hc').1, List.mapM_cons, pyInt_padded ha hb]
      exact ⟨by simp, fun c hc' => (hc c hc').2⟩
    | cons q l =>
      obtain ⟨h1, h2⟩ := ih (by simp) fun p hp' => hp p (List.mem_cons_of_mem _ hp')
      unfold paddedText
      rw [splitComma_cut fun c hc' => (hc c hc').1, List.mapM_cons, pyInt_padded ha hb, h1]
      refine ⟨by simp, fun c hc' => ?_⟩
      rcases List.mem_append.mp hc' with h3 | h3
      · exact (hc c h3).2
      · rcases List.mem_cons.mp h3 with rfl | h3
        · exact ⟨by decide, by decide⟩
        · exact h2 c h3

end Verif.Proofs
