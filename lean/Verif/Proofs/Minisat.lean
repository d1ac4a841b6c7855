import Verif.Model.Minisat
import Verif.Spec.Solver
import Verif.Spec.Formula
import Verif.Proofs.Cnf
import Verif.Proofs.KsatSafe

namespace Verif.Proofs
open Verif Spec Model

theorem fileLines_line {body : List Char} (h : ∀ c ∈ body, c ≠ '\n') (cur rest : List Char) :
    fileLines cur (body ++ '\n' :: rest) = (cur ++ body ++ ['\n']) :: fileLines [] rest := by
  induction body generalizing cur with
  | nil => simp [fileLines]
  | cons c body ih =>
    rw [List.cons_append, fileLines, if_neg (h c (by simp)), ih (fun x hx => h x (by simp [hx]))]
    simp

theorem fileLines_lines {ls : List (List Char)} (h : ∀ l ∈ ls, ∃ b, l = b ++ ['\n'] ∧ ∀ c ∈ b, c ≠ '\n') (rest : List Char) :
    fileLines [] (ls.flatten ++ rest) = ls ++ fileLines [] rest := by
  induction ls with
  | nil => rfl
  | cons l ls ih =>
    obtain ⟨b, rfl, hb⟩ := h l (by simp)
    have : (List.flatten ((b ++ ['\n']) :: ls)) ++ rest = b ++ '\n' :: (ls.flatten ++ rest) := by simp
    rw [this, fileLines_line hb, ih (fun l hl => h l (by simp [hl]))]
    rfl

/-- No white space in a word. -/
def NoSpace (w : List Char) : Prop := ∀ c ∈ w, ¬ (c = ' ' ∨ c = '\t' ∨ c = '\n')

theorem splitWords_cur {w : List Char} (h : NoSpace w) (cur rest : List Char) : splitWords cur (w ++ rest) = splitWords (cur ++ w) rest := by
  induction w generalizing cur with
  | nil => simp
  | cons c w ih =>
    rw [List.cons_append, splitWords, if_neg (h c (by simp)), ih (fun x hx => h x (by simp [hx]))]
    simp

theorem splitWords_word {w : List Char} (h : NoSpace w) (hne : w ≠ []) {c : Char} (hc : c = ' ' ∨ c = '\t' ∨ c = '\n') (rest : List Char) :
    splitWords [] (w ++ c :: rest) = w :: splitWords [] rest := by
  rw [splitWords_cur h, List.nil_append, splitWords, if_pos hc, if_neg hne]

theorem digits_noSpace (n : ℕ) : NoSpace (Nat.toDigits 10 n) := by
  intro c hc
  have := Nat.isDigit_of_mem_toDigits (by omega) (by omega) hc
  rintro (rfl | rfl | rfl) <;> exact absurd this (by decide)

theorem wordNat_digits (n : ℕ) : wordNat (Nat.toDigits 10 n) = some n := by
  have h : (Nat.toDigits 10 n).all Char.isDigit = true :=
    List.all_eq_true.mpr fun c hc => Nat.isDigit_of_mem_toDigits (by omega) (by omega) hc
  unfold wordNat
  rw [if_pos ⟨Nat.toDigits_ne_nil, h⟩, Nat.ofDigitChars_ten_toDigits]

theorem digits_head {n : ℕ} (h : n ≠ 0) : ∃ c l, Nat.toDigits 10 n = c :: l ∧ c ≠ '0' ∧ c.isDigit = true := by
  induction n using Nat.strong_induction_on with
  | _ n ih =>
    rw [Nat.toDigits_eq_if (by omega)]
    by_cases hn : n < 10
    · rw [if_pos hn]
      refine ⟨_, _, rfl, ?_, (digitChar_isDigit hn).1⟩
      have : n = 1 ∨ n = 2 ∨ n = 3 ∨ n = 4 ∨ n = 5 ∨ n = 6 ∨ n = 7 ∨ n = 8 ∨ n = 9 := by omega
      rcases this with rfl | rfl | rfl | rfl | rfl | rfl | rfl | rfl | rfl <;> decide
    · rw [if_neg hn]
      obtain ⟨c, l, e, h0, h1⟩ := ih (n / 10) (by omega) (by omega)
      exact ⟨c, l ++ [Nat.digitChar (n % 10)], by rw [e]; rfl, h0, h1⟩

/-- The word of a literal. -/
def litWord (l : ℕ × ℤ) : List Char := (if l.2 = -1 then ['-'] else []) ++ Nat.toDigits 10 (l.1 + 1)

theorem cnfLiteral_word (l : ℕ × ℤ) : cnfLiteral l = litWord l ++ [' '] := by
  rw [cnfLiteral, litWord, List.append_assoc]

theorem litWord_head (l : ℕ × ℤ) : ∃ c r, litWord l = c :: r ∧ (c = '-' ∨ c ≠ '0' ∧ c.isDigit = true) := by
  unfold litWord
  obtain ⟨c, r, e, h0, h1⟩ := digits_head (n := l.1 + 1) (by omega)
  split_ifs
  · exact ⟨_, _, rfl, Or.inl rfl⟩
  · exact ⟨c, r, by rw [e]; rfl, Or.inr ⟨h0, h1⟩⟩

theorem litWord_noSpace (l : ℕ × ℤ) : NoSpace (litWord l) := by
  intro c hc
  rcases List.mem_append.mp hc with h | h
  · split_ifs at h
    · obtain rfl := List.mem_singleton.mp h
      decide
    · simp at h
  · exact digits_noSpace _ c h

theorem wordLiteral_lit {l : ℕ × ℤ} (h : l.2 = 1 ∨ l.2 = -1) : wordLiteral (litWord l) = some l := by
  unfold litWord
  rcases h with h | h
  · obtain ⟨c, r, e, h0, h1⟩ := digits_head (n := l.1 + 1) (by omega)
    have hw := wordNat_digits (l.1 + 1)
    rw [h, if_neg (by decide), List.nil_append]
    rw [e] at hw ⊢
    unfold wordLiteral
    split
    · rename_i heq
      obtain ⟨rfl, -⟩ := List.cons.inj heq
      exact absurd h1 (by decide)
    · rw [hw]
      simp only [Option.bind_some, Nat.add_sub_cancel, ← h]
      rfl
  · rw [h, if_pos rfl]
    simp only [List.cons_append, List.nil_append, wordLiteral, wordNat_digits, Option.bind_some, Nat.add_sub_cancel, ← h]
    rfl

theorem wordInt_lit {l : ℕ × ℤ} (h : l.2 = 1 ∨ l.2 = -1) : wordInt (litWord l) = some (litInt l) := by
  unfold litWord litInt
  rcases h with h | h
  · obtain ⟨c, r, e, h0, h1⟩ := digits_head (n := l.1 + 1) (by omega)
    have hw := wordNat_digits (l.1 + 1)
    rw [h, if_neg (by decide), List.nil_append]
    rw [e] at hw ⊢
    unfold wordInt
    split
    · rename_i heq
      obtain ⟨rfl, -⟩ := List.cons.inj heq
      exact absurd h1 (by decide)
    · rw [hw]
      simp
  · rw [h, if_pos rfl]
    simp only [List.cons_append, List.nil_append, wordInt, wordNat_digits]
    simp

theorem splitWords_clause (cl : List (ℕ × ℤ)) : splitWords [] (cnfClause cl) = cl.map litWord ++ [['0']] := by
  unfold cnfClause
  induction cl with
  | nil => decide
  | cons l cl ih =>
    rw [List.flatMap_cons, cnfLiteral_word, List.append_assoc, List.append_assoc, List.singleton_append,
      splitWords_word (litWord_noSpace l) (by obtain ⟨c, r, e, -⟩ := litWord_head l; rw [e]; simp) (Or.inl rfl), ih]
    rfl

theorem clause_line (cl : List (ℕ × ℤ)) : ∃ b, cnfClause cl = b ++ ['\n'] ∧ ∀ c ∈ b, c ≠ '\n' := by
  refine ⟨cl.flatMap cnfLiteral ++ ['0'], by simp [cnfClause], fun c hc => ?_⟩
  rcases List.mem_append.mp hc with h | h
  · obtain ⟨l, -, hl⟩ := List.mem_flatMap.mp h
    rw [cnfLiteral_word] at hl
    rcases List.mem_append.mp hl with h | h
    · exact fun e => litWord_noSpace l c h (Or.inr (Or.inr e))
    · obtain rfl := List.mem_singleton.mp h
      decide
  · obtain rfl := List.mem_singleton.mp h
    decide

theorem clause_kept {cl : List (ℕ × ℤ)} (h : cl ≠ []) : skippedLine (cnfClause cl) = false := by
  obtain ⟨l, cl, rfl⟩ := List.exists_cons_of_ne_nil h
  obtain ⟨c, r, e, hc⟩ := litWord_head l
  have : cnfClause (l :: cl) = c :: (r ++ [' '] ++ cl.flatMap cnfLiteral ++ ['0', '\n']) := by
    simp [cnfClause, cnfLiteral_word, e]
  rw [this]
  simp only [skippedLine, Bool.or_eq_false_iff, beq_eq_false_iff_ne]
  rcases hc with rfl | ⟨h0, h1⟩
  · decide
  · refine ⟨⟨⟨⟨?_, ?_⟩, ?_⟩, ?_⟩, h0⟩ <;> rintro rfl <;> exact absurd h1 (by decide)

/-- The header line. -/
def headerLine (n m : ℕ) : List Char := "p cnf ".toList ++ (Nat.toDigits 10 n ++ ([' '] ++ (Nat.toDigits 10 m ++ ['\n'])))

theorem header_line (n m : ℕ) : ∃ b, headerLine n m = b ++ ['\n'] ∧ ∀ c ∈ b, c ≠ '\n' := by
  refine ⟨"p cnf ".toList ++ (Nat.toDigits 10 n ++ ([' '] ++ Nat.toDigits 10 m)), by simp [headerLine], fun c hc => ?_⟩
  simp only [List.mem_append] at hc
  rcases hc with h | h | h | h
  · rintro rfl
    exact absurd h (by decide)
  · exact digits_no_newline n c h
  · obtain rfl := List.mem_singleton.mp h
    decide
  · exact digits_no_newline m c h

theorem splitWords_header (n m : ℕ) : splitWords [] (headerLine n m) = [['p'], ['c', 'n', 'f'], Nat.toDigits 10 n, Nat.toDigits 10 m] := by
  have : headerLine n m = ['p'] ++ ' ' :: (['c', 'n', 'f'] ++ ' ' :: (Nat.toDigits 10 n ++ ' ' :: (Nat.toDigits 10 m ++ '\n' :: []))) := by
    simp [headerLine]
  rw [this, splitWords_word (by unfold NoSpace; decide) (by simp) (Or.inl rfl), splitWords_word (by unfold NoSpace; decide) (by simp) (Or.inl rfl),
    splitWords_word (digits_noSpace n) Nat.toDigits_ne_nil (Or.inl rfl), splitWords_word (digits_noSpace m) Nat.toDigits_ne_nil (Or.inr (Or.inr rfl))]
  simp [splitWords]

theorem text_lines {pre : List (List Char)} (hpre : ∀ l ∈ pre, ∃ b, l = b ++ ['\n'] ∧ ∀ c ∈ b, c ≠ '\n') (n m : ℕ) (F : List (List (ℕ × ℤ)))
    (tail : List Char) :
    fileLines [] (pre.flatten ++ cnfText n m F ++ tail) = pre ++ (headerLine n m :: (F.map cnfClause ++ fileLines [] tail)) := by
  have : pre.flatten ++ cnfText n m F ++ tail = (pre ++ (headerLine n m :: F.map cnfClause)).flatten ++ tail := by
    simp [cnfText, headerLine, List.flatMap_def]
  rw [this, fileLines_lines]
  · simp
  · intro l hl
    rcases List.mem_append.mp hl with h | h
    · exact hpre l h
    · rcases List.mem_cons.mp h with rfl | h
      · exact header_line n m
      · obtain ⟨cl, -, rfl⟩ := List.mem_map.mp h
        exact clause_line cl

theorem text_header {pre : List (List Char)} (hc : ∀ l ∈ pre, l.head? = some 'c') (n m : ℕ) (rest : List (List Char)) :
    cnfHeader (pre ++ headerLine n m :: rest) = some (pre.length + 1, n, m) := by
  have hf : (pre ++ headerLine n m :: rest).findIdx (fun l => "p cnf".toList.isPrefixOf l) = pre.length := by
    rw [List.findIdx_append, List.findIdx_eq_length_of_false (xs := pre), if_neg (by simp)]
    · have : (headerLine n m :: rest).findIdx (fun l => "p cnf".toList.isPrefixOf l) = 0 := by
        rw [List.findIdx_cons]
        have : ("p cnf".toList.isPrefixOf (headerLine n m)) = true := by
          rw [List.isPrefixOf_iff_prefix]
          exact ⟨' ' :: (Nat.toDigits 10 n ++ ([' '] ++ (Nat.toDigits 10 m ++ ['\n']))), rfl⟩
        rw [this]
        rfl
      rw [this, Nat.zero_add]
    · intro l hl
      have := hc l hl
      cases l with
      | nil => simp at this
      | cons c l =>
        obtain rfl : c = 'c' := by simpa using this
        rfl
  unfold cnfHeader
  simp only [hf, Option.bind_eq_bind, List.getElem?_append_right (le_refl _), Nat.sub_self, List.getElem?_cons_zero, Option.bind_some, splitWords_header,
    wordNat_digits]

/-- The entries of variable `v` for clause number `c`. -/
def entries (cl : List (ℕ × ℤ)) (v c : ℕ) : List (ℕ × ℤ) := (cl.filter (fun l => l.1 == v)).map (fun l => (c, l.2))

/-- The lists of the variables for a formula. -/
def connTable (n : ℕ) (F : List (List (ℕ × ℤ))) : List (List (ℕ × ℤ)) :=
  (List.range n).map (fun v => (List.range F.length).flatMap (fun c => entries (F.getD c []) v c))

/-- The same with integer clause numbers. -/
def castConns (co : List (List (ℕ × ℤ))) : List (List (ℤ × ℤ)) := co.map (List.map (fun p => ((p.1 : ℤ), p.2)))

/-- Add a clause to the table. -/
def addClause (co : List (List (ℕ × ℤ))) (cl : List (ℕ × ℤ)) (c : ℕ) : List (List (ℕ × ℤ)) := co.mapIdx (fun v r => r ++ entries cl v c)

theorem connTable_length (n : ℕ) (F : List (List (ℕ × ℤ))) : (connTable n F).length = n := by simp [connTable]

theorem connTable_snoc (n : ℕ) (F : List (List (ℕ × ℤ))) (cl : List (ℕ × ℤ)) :
    connTable n (F ++ [cl]) = addClause (connTable n F) cl F.length := by
  refine List.ext_getElem (by simp [addClause, connTable]) fun v h1 h2 => ?_
  simp only [connTable, addClause, List.getElem_mapIdx, List.getElem_map, List.getElem_range, List.length_append, List.length_singleton, List.range_succ,
    List.flatMap_append, List.flatMap_cons, List.flatMap_nil, List.append_nil]
  congr 1
  · refine List.flatMap_congr fun c hc => ?_
    rw [List.getD_append _ _ _ _ (List.mem_range.mp hc)]
  · rw [List.getD_append_right _ _ _ _ (le_refl _), Nat.sub_self]
    rfl

theorem addClause_snoc (co : List (List (ℕ × ℤ))) (cl : List (ℕ × ℤ)) (l : ℕ × ℤ) (c : ℕ) (h : l.1 < co.length) :
    addClause co (cl ++ [l]) c = (addClause co cl c).set l.1 ((addClause co cl c)[l.1]'(by simpa [addClause] using h) ++ [(c, l.2)]) := by
  refine List.ext_getElem (by simp [addClause]) fun v h1 h2 => ?_
  rw [List.getElem_set]
  by_cases hv : l.1 = v
  · subst hv
    simp [addClause, entries]
  · rw [if_neg hv]
    simp [addClause, entries, hv]

theorem read_words {n : ℕ} {co : List (List (ℕ × ℤ))} (hco : co.length = n) (c : ℕ) {cl : List (ℕ × ℤ)} (hcl : ∀ l ∈ cl, l.1 < n ∧ (l.2 = 1 ∨ l.2 = -1))
    (s : CnfState) (hs : s.conns = castConns co) :
    loopList (cl.map litWord) (readWord c) ([], s) =
      some (cl, { s with used := s.used ++ cl.map Prod.fst, conns := castConns (addClause co cl c) }) := by
  have key : ∀ (done todo : List (ℕ × ℤ)), (∀ l ∈ done ++ todo, l.1 < n ∧ (l.2 = 1 ∨ l.2 = -1)) →
      loopList (todo.map litWord) (readWord c) (done, { s with used := s.used ++ done.map Prod.fst, conns := castConns (addClause co done c) }) =
        some (done ++ todo, { s with used := s.used ++ (done ++ todo).map Prod.fst, conns := castConns (addClause co (done ++ todo) c) }) := by
    intro done todo
    induction todo generalizing done with
    | nil => intro _; simp [loopList]
    | cons l todo ih =>
      intro h
      obtain ⟨h1, h2⟩ := h l (by simp)
      have hlen : l.1 < (addClause co done c).length := by simpa [addClause, hco] using h1
      have hlen' : l.1 < (castConns (addClause co done c)).length := by simpa [castConns] using hlen
      rw [List.map_cons, loopList]
      unfold readWord
      simp only [wordLiteral_lit h2, Option.bind_eq_bind, Option.bind_some, List.getElem?_eq_getElem hlen']
      have e : (castConns (addClause co done c)).set l.1 ((castConns (addClause co done c))[l.1] ++ [((c : ℤ), l.2)]) =
          castConns (addClause co (done ++ [l]) c) := by
        rw [addClause_snoc co done l c (by omega)]
        simp only [castConns, List.map_set, List.getElem_map, List.map_append, List.map_cons, List.map_nil]
      have ih := ih (done ++ [l]) (by simpa using h)
      unfold readWord at ih
      rw [e]
      simpa using ih
  have h0 : ({ s with used := s.used ++ ([] : List (ℕ × ℤ)).map Prod.fst, conns := castConns (addClause co [] c) } : CnfState) = s := by
    have : addClause co [] c = co := by
      refine List.ext_getElem (by simp [addClause]) fun v h1 h2 => ?_
      simp [addClause, entries]
    rw [this, ← hs]
    simp
  have := key [] cl (by simpa using hcl)
  rw [h0] at this
  simpa using this

theorem mapM_ints {cl : List (ℕ × ℤ)} (h : ∀ l ∈ cl, l.2 = 1 ∨ l.2 = -1) : (cl.map litWord).mapM wordInt = some (cl.map litInt) := by
  induction cl with
  | nil => rfl
  | cons l cl ih =>
    rw [List.map_cons, List.mapM_cons, wordInt_lit (h l (by simp)), ih (fun l hl => h l (by simp [hl]))]
    rfl

/-- The state after the clauses `F`. -/
def readState (n k : ℕ) (F : List (List (ℕ × ℤ))) : CnfState :=
  ⟨F, F.map (List.map litInt), F.flatMap (List.map Prod.fst), castConns (connTable n F), if F = [] then none else some k⟩

theorem read_clause_line {n k : ℕ} (hk : 1 ≤ k) (start : ℕ) (F : List (List (ℕ × ℤ))) {cl : List (ℕ × ℤ)} (hcl : cl.length = k)
    (hl : ∀ l ∈ cl, l.1 < n ∧ (l.2 = 1 ∨ l.2 = -1)) :
    readLine start (cnfClause cl, start + F.length) (readState n k F) = some (readState n k (F ++ [cl])) := by
  unfold readLine
  have hne : cl ≠ [] := by rintro rfl; simp at hcl; omega
  simp only [clause_kept hne, Bool.false_eq_true, if_false, splitWords_clause, List.dropLast_concat, mapM_ints (fun l h => (hl l h).2), Option.bind_eq_bind,
    Option.bind_some]
  have hci : (((start + F.length : ℕ) : ℤ) - (start : ℤ)) = ((F.length : ℕ) : ℤ) := by push_cast; ring
  rw [hci, read_words (co := connTable n F) (connTable_length n F) F.length hl _ rfl]
  simp only [Option.bind_some, hcl]
  have hch : checkLength (F.length : ℤ) k (readState n k F).k = some (some k) := by
    unfold checkLength readState
    by_cases h : F = []
    · simp [h]
    · have : (F.length : ℤ) ≠ 0 := by
        have := List.length_pos_iff.mpr h
        omega
      simp [h]
  rw [hch]
  simp only [Option.bind_some, readState, connTable_snoc]
  simp

theorem loopList_append {σ β : Type} (l l' : List β) (body : β → σ → Option σ) (s : σ) :
    loopList (l ++ l') body s = (loopList l body s).bind (loopList l' body) := by
  induction l generalizing s with
  | nil => rfl
  | cons b l ih =>
    rw [List.cons_append, loopList, loopList]
    cases body b s with
    | none => rfl
    | some s => simp [ih]

theorem read_skipped {ls : List (List Char)} (h : ∀ l ∈ ls, skippedLine l = true) (start i : ℕ) (s : CnfState) :
    loopList (ls.zipIdx i) (readLine start) s = some s := by
  induction ls generalizing i with
  | nil => rfl
  | cons l ls ih =>
    rw [List.zipIdx_cons, loopList]
    unfold readLine
    simp only [h l (by simp), if_true, Option.bind_some]
    exact ih (fun l hl => h l (by simp [hl])) _

theorem read_clauses_lines {n k : ℕ} (hk : 1 ≤ k) (start : ℕ) (F G : List (List (ℕ × ℤ)))
    (h : ∀ cl ∈ G, cl.length = k ∧ ∀ l ∈ cl, l.1 < n ∧ (l.2 = 1 ∨ l.2 = -1)) :
    loopList ((G.map cnfClause).zipIdx (start + F.length)) (readLine start) (readState n k F) = some (readState n k (F ++ G)) := by
  induction G generalizing F with
  | nil => simp [loopList]
  | cons cl G ih =>
    rw [List.map_cons, List.zipIdx_cons, loopList, read_clause_line hk start F (h cl (by simp)).1 (h cl (by simp)).2, Option.bind_some]
    have := ih (F ++ [cl]) (fun c hc => h c (by simp [hc]))
    rw [List.length_append, List.length_singleton, ← Nat.add_assoc] at this
    rw [this, List.append_assoc, List.singleton_append]

theorem readCnfFile_text {n k m : ℕ} (hk : 1 ≤ k) {F : List (List (ℕ × ℤ))} (hF : ∀ cl ∈ F, cl.length = k ∧ ∀ l ∈ cl, l.1 < n ∧ (l.2 = 1 ∨ l.2 = -1))
    {pre : List (List Char)} (hpre : ∀ l ∈ pre, l.head? = some 'c' ∧ ∃ b, l = b ++ ['\n'] ∧ ∀ c ∈ b, c ≠ '\n') {tail : List Char}
    (ht : ∀ l ∈ fileLines [] tail, skippedLine l = true) :
    readCnfFile (pre.flatten ++ cnfText n m F ++ tail) =
      if F = [] then none else some ⟨n, m, k, { readState n k F with used := (F.flatMap (List.map Prod.fst)).dedup }⟩ := by
  unfold readCnfFile
  simp only [text_lines (fun l hl => (hpre l hl).2), text_header (fun l hl => (hpre l hl).1), Option.bind_eq_bind, Option.bind_some]
  have h0 : (⟨[], [], [], List.replicate n [], none⟩ : CnfState) = readState n k [] := by
    have : castConns (connTable n []) = List.replicate n [] := by
      refine List.ext_getElem (by simp [castConns, connTable]) fun v h1 h2 => ?_
      simp [castConns, connTable]
    simp [readState, this]
  have hskip : ∀ l ∈ pre ++ [headerLine n m], skippedLine l = true := by
    intro l hl
    rcases List.mem_append.mp hl with h | h
    · have := (hpre l h).1
      cases l with
      | nil => simp at this
      | cons c l =>
        obtain rfl : c = 'c' := by simpa using this
        rfl
    · obtain rfl := List.mem_singleton.mp h
      rfl
  have e : pre ++ headerLine n m :: (F.map cnfClause ++ fileLines [] tail) = (pre ++ [headerLine n m]) ++ (F.map cnfClause ++ fileLines [] tail) := by simp
  rw [e, List.zipIdx_append, loopList_append, read_skipped hskip, Option.bind_some, List.zipIdx_append, loopList_append, h0]
  have := read_clauses_lines (n := n) (k := k) hk (pre.length + 1) [] F hF
  simp only [List.length_nil, Nat.add_zero, List.nil_append] at this
  rw [Nat.zero_add, List.length_append, List.length_singleton, this, Option.bind_some, read_skipped ht, Option.bind_some]
  by_cases h : F = []
  · simp [h, readState]
  · simp [h, readState]

theorem mem_connTable {n : ℕ} {F : List (List (ℕ × ℤ))} (hF : ∀ cl ∈ F, ∀ l ∈ cl, l.1 < n) (v c : ℕ) (s : ℤ) :
    (c, s) ∈ (connTable n F).getD v [] ↔ (v, s) ∈ F.getD c [] := by
  by_cases hv : v < n
  · rw [List.getD_eq_getElem?_getD, List.getElem?_eq_getElem (by rw [connTable_length]; exact hv), Option.getD_some]
    simp only [connTable, List.getElem_map, List.getElem_range, List.mem_flatMap, List.mem_range, entries, List.mem_map, List.mem_filter, beq_iff_eq,
      Prod.mk.injEq]
    constructor
    · rintro ⟨c', hc', l, ⟨hl, rfl⟩, rfl, rfl⟩
      exact hl
    · intro h
      have hc : c < F.length := by
        by_contra hc
        rw [List.getD_eq_default _ _ (by omega)] at h
        simp at h
      exact ⟨c, hc, (v, s), ⟨h, rfl⟩, rfl, rfl⟩
  · rw [List.getD_eq_default _ _ (by rw [connTable_length]; omega)]
    constructor
    · intro h; simp at h
    · intro h
      exfalso
      have hc : c < F.length := by
        by_contra hc
        rw [List.getD_eq_default _ _ (by omega)] at h
        simp at h
      rw [List.getD_eq_getElem?_getD, List.getElem?_eq_getElem hc, Option.getD_some] at h
      exact hv (hF _ (List.getElem_mem hc) _ h)

theorem connTable_formula {n k : ℕ} {F : List (List (ℕ × ℤ))}
    (hF : ∀ cl ∈ F, cl.length = k ∧ (cl.map Prod.fst).Nodup ∧ ∀ l ∈ cl, l.1 < n ∧ (l.2 = 1 ∨ l.2 = -1)) :
    KFormula n k F (F.flatMap (List.map Prod.fst)).dedup (connTable n F) := by
  refine ⟨fun cl h => ⟨(hF cl h).1, (hF cl h).2.1, fun l hl => ((hF cl h).2.2 l hl).2⟩,
    ⟨mem_connTable fun cl h l hl => ((hF cl h).2.2 l hl).1, fun cl hcl l hl => ?_, fun v hv => ?_⟩, connTable_length n F, fun v => ?_⟩
  · exact List.mem_dedup.mpr (List.mem_flatMap.mpr ⟨cl, hcl, List.mem_map.mpr ⟨l, hl, rfl⟩⟩)
  · obtain ⟨cl, hcl, h⟩ := List.mem_flatMap.mp (List.mem_dedup.mp hv)
    obtain ⟨l, hl, rfl⟩ := List.mem_map.mp h
    exact ((hF cl hcl).2.2 l hl).1
  · by_cases hv : v < n
    · rw [List.getD_eq_getElem?_getD, List.getElem?_eq_getElem (by rw [connTable_length]; exact hv), Option.getD_some]
      simp only [connTable, List.getElem_map, List.getElem_range, List.map_flatMap]
      rw [List.nodup_flatMap]
      constructor
      · intro c hc
        have hc := List.mem_range.mp hc
        have hn := (hF _ (List.getElem_mem hc)).2.1
        rw [List.getD_eq_getElem?_getD, List.getElem?_eq_getElem hc, Option.getD_some]
        have hle : (entries F[c] v c).length ≤ 1 := by
          unfold entries
          rw [List.length_map, ← List.countP_eq_length_filter]
          have := List.nodup_iff_count_le_one.mp hn v
          rw [List.count, List.countP_map] at this
          exact this
        rcases he : (entries F[c] v c) with _ | ⟨a, _ | ⟨b, r⟩⟩
        · simp
        · simp
        · rw [he] at hle; simp at hle
      · refine List.Pairwise.imp ?_ (List.nodup_range (n := F.length))
        intro a b hab x hx hy
        simp only [entries, List.map_map, List.mem_map, Function.comp] at hx hy
        obtain ⟨_, -, rfl⟩ := hx
        obtain ⟨_, -, h⟩ := hy
        exact hab h.symm
    · rw [List.getD_eq_default _ _ (by rw [connTable_length]; omega)]
      simp

theorem mem_connsWith {co : List (List (ℕ × ℤ))} {ty : ℤ} {vars : List ℕ} {c : ℕ} :
    (c : ℤ) ∈ connsWith (castConns co) ty vars ↔ ∃ v ∈ vars, (c, ty) ∈ co.getD v [] := by
  unfold connsWith
  simp only [List.mem_dedup, List.mem_flatMap, List.mem_map, List.mem_filter, Bool.and_eq_true, beq_iff_eq, List.contains_iff_mem]
  constructor
  · rintro ⟨⟨r, v⟩, hr, p, ⟨hp, h1, h2⟩, h3⟩
    rw [List.mem_zipIdx_iff_getElem?] at hr
    simp only at hr hp h1 h2
    unfold castConns at hr
    rw [List.getElem?_map, Option.map_eq_some_iff] at hr
    obtain ⟨r', e, rfl⟩ := hr
    obtain ⟨q, hq, rfl⟩ := List.mem_map.mp hp
    refine ⟨v, h2, ?_⟩
    rw [List.getD_eq_getElem?_getD, e, Option.getD_some]
    have : q = (c, ty) := by
      refine Prod.ext ?_ h1
      have h3 : (q.1 : ℤ) = c := h3
      exact_mod_cast h3
    rwa [← this]
  · rintro ⟨v, hv, h⟩
    rw [List.getD_eq_getElem?_getD] at h
    cases e : co[v]? with
    | none => rw [e] at h; simp at h
    | some r =>
      rw [e, Option.getD_some] at h
      refine ⟨(r.map (fun p => ((p.1 : ℤ), p.2)), v), ?_, ((c : ℤ), ty), ⟨List.mem_map.mpr ⟨_, h, rfl⟩, rfl, hv⟩, rfl⟩
      rw [List.mem_zipIdx_iff_getElem?]
      unfold castConns
      rw [List.getElem?_map, e]
      rfl

theorem mem_zipIdx_map {lits : List ℤ} {q : Bool → Bool} {v : ℕ} :
    v ∈ (((lits.map (fun x => decide (0 < x))).zipIdx).filter (fun p => q p.1)).map Prod.snd ↔ ∃ x, lits[v]? = some x ∧ q (decide (0 < x)) = true := by
  simp only [List.mem_map, List.mem_filter]
  constructor
  · rintro ⟨⟨b, i⟩, ⟨h1, h2⟩, rfl⟩
    rw [List.mem_zipIdx_iff_getElem?] at h1
    simp only [List.getElem?_map, Option.map_eq_some_iff] at h1
    obtain ⟨x, e, rfl⟩ := h1
    exact ⟨x, e, h2⟩
  · rintro ⟨x, e, h⟩
    refine ⟨(decide (0 < x), v), ⟨?_, h⟩, rfl⟩
    rw [List.mem_zipIdx_iff_getElem?]
    simp [e]

/-- The literal holds in the list of signed variables. -/
theorem signed_mem {lits : List ℤ} (hs : SignedList lits) {l : ℕ × ℤ} (hl : l.2 = 1 ∨ l.2 = -1) :
    litInt l ∈ lits ↔ ∃ x, lits[l.1]? = some x ∧ (l.2 = 1 ∧ 0 < x ∨ l.2 = -1 ∧ x ≤ 0) := by
  have hn : (litInt l).natAbs = l.1 + 1 := by
    unfold litInt; split_ifs <;> omega
  constructor
  · intro h
    obtain ⟨i, hi⟩ := List.mem_iff_getElem?.mp h
    have := hs i _ hi
    obtain rfl : i = l.1 := by omega
    refine ⟨_, hi, ?_⟩
    rcases hl with e | e <;> unfold litInt <;> rw [e]
    · exact Or.inl ⟨rfl, by rw [if_neg (by decide)]; omega⟩
    · exact Or.inr ⟨rfl, by rw [if_pos rfl]; omega⟩
  · rintro ⟨x, hx, h⟩
    have := hs _ _ hx
    have : x = litInt l := by
      unfold litInt
      rcases h with ⟨e, h⟩ | ⟨e, h⟩ <;> rw [e]
      · rw [if_neg (by decide)]; omega
      · rw [if_pos rfl]; omega
    rw [← this]
    exact List.mem_of_getElem? hx

theorem intTrue_lit {σ : ℕ → Bool} {l : ℕ × ℤ} (hl : l.2 = 1 ∨ l.2 = -1) : IntTrue (fun i => σ (i - 1)) (litInt l) ↔ LitTrue σ l := by
  have hn : (litInt l).natAbs - 1 = l.1 := by unfold litInt; split_ifs <;> omega
  unfold IntTrue LitTrue
  simp only [hn]
  rcases hl with e | e <;> unfold litInt <;> rw [e]
  · rw [if_neg (by decide)]
    constructor
    · rintro (⟨-, h⟩ | ⟨h, -⟩)
      · exact Or.inl ⟨rfl, h⟩
      · omega
    · rintro (⟨-, h⟩ | ⟨h, -⟩)
      · exact Or.inl ⟨by omega, h⟩
      · exact absurd h (by decide)
  · rw [if_pos rfl]
    constructor
    · rintro (⟨h, -⟩ | ⟨-, h⟩)
      · omega
      · exact Or.inr ⟨rfl, h⟩
    · rintro (⟨h, -⟩ | ⟨-, h⟩)
      · exact absurd h (by decide)
      · exact Or.inr ⟨by omega, h⟩

end Verif.Proofs
