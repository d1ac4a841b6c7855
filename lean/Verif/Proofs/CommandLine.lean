import Mathlib.Data.List.Nodup
import Verif.Model.CommandLine
import Verif.Spec.CommandLine

/-! Helper lemmas on command lines. -/

namespace Verif.Proofs
open Verif Num Model Spec

/-- The names of a table of options: all different, without `=`. -/
def NamesOk (opts : List ArgOption) : Prop := (opts.map ArgOption.name).Nodup ∧ ∀ o ∈ opts, '=' ∉ o.name

theorem find_name {opts : List ArgOption} (h : (opts.map ArgOption.name).Nodup) {o : ArgOption} (ho : o ∈ opts) (p : ArgOption → Bool)
    (hp : ∀ q ∈ opts, p q = true ↔ q.name = o.name) : opts.find? p = some o := by
  induction opts with
  | nil => cases ho
  | cons a l ih =>
    rw [List.map_cons, List.nodup_cons] at h
    rw [List.find?_cons]
    by_cases ha : a.name = o.name
    · rw [(hp a List.mem_cons_self).2 ha]
      rcases List.mem_cons.mp ho with rfl | hol
      · rfl
      · exact absurd (ha ▸ List.mem_map_of_mem hol) h.1
    · have : p a = false := by
        rw [← Bool.not_eq_true]; exact fun hc => ha ((hp a List.mem_cons_self).1 hc)
      rw [this]
      rcases List.mem_cons.mp ho with rfl | hol
      · exact absurd rfl ha
      · exact ih h.2 hol fun q hq => hp q (List.mem_cons_of_mem _ hq)

theorem classify_value (opts : List ArgOption) {t : List Char} (h : t.head? ≠ some '-') : classifyArg opts t = .value := by
  unfold classifyArg
  rw [if_pos (by simpa using h)]

theorem classify_name {opts : List ArgOption} (h : NamesOk opts) {o : ArgOption} (ho : o ∈ opts) :
    classifyArg opts ('-' :: '-' :: o.name) = .option o none := by
  unfold classifyArg
  rw [if_neg (by simp), find_name h.1 ho _ (fun q _ => by simp)]

theorem before_append {a : List Char} (h : '=' ∉ a) (b : List Char) : beforeEq (a ++ '=' :: b) = a := by
  unfold beforeEq
  rw [List.takeWhile_append_of_pos (by intro c hc; simp only [bne_iff_ne, ne_eq]; rintro rfl; exact h hc)]
  simp

theorem after_append {a : List Char} (h : '=' ∉ a) (b : List Char) : afterEq (a ++ '=' :: b) = some b := by
  unfold afterEq
  rw [if_pos (by simp), List.dropWhile_append_of_pos (by intro c hc; simp only [bne_iff_ne, ne_eq]; rintro rfl; exact h hc)]
  simp

theorem after_split {t w : List Char} (h : afterEq t = some w) : ∃ a, t = a ++ '=' :: w := by
  by_cases hm : '=' ∈ t
  · obtain ⟨a, b, rfl, ha⟩ := List.eq_append_cons_of_mem hm
    rw [after_append ha] at h
    cases h
    exact ⟨a, rfl⟩
  · unfold afterEq at h
    rw [if_neg (by rwa [List.contains_iff_mem])] at h
    cases h

theorem classify_joined {opts : List ArgOption} (h : NamesOk opts) {o : ArgOption} (ho : o ∈ opts) (v : List Char) :
    classifyArg opts ('-' :: '-' :: o.name ++ '=' :: v) = .option o (some v) := by
  have hn : '=' ∉ '-' :: '-' :: o.name := by simp [h.2 o ho]
  have hb := before_append hn v
  have ha := after_append hn v
  unfold classifyArg
  rw [if_neg (by simp)]
  have : opts.find? (fun q => '-' :: '-' :: q.name == '-' :: '-' :: o.name ++ '=' :: v) = none := by
    rw [List.find?_eq_none]
    intro q hq hc
    have : q.name = o.name ++ '=' :: v := by simpa using hc
    exact h.2 q hq (by rw [this]; simp)
  rw [this]
  dsimp only
  rw [if_neg (by simp), hb, ha, find_name h.1 ho _ (fun q _ => by simp)]

theorem parseFrom_text {cv : Conversions} {opts : List ArgOption} {t w : List Char} {o : ArgOption} (h : classifyArg opts t = .option o (some w))
    (rest : List (List Char)) (given : List (List Char × ArgValue)) :
    parseFrom cv opts (t :: rest) given = (convertArg cv o.kind w).bind fun x => parseFrom cv opts rest ((o.name, x) :: given) := by
  cases rest with
  | nil =>
    rw [parseFrom, h]
    dsimp only
    cases convertArg cv o.kind w <;> rfl
  | cons v rest => rw [parseFrom, h]

theorem parseFrom_next {cv : Conversions} {opts : List ArgOption} {t v : List Char} {o : ArgOption} (h : classifyArg opts t = .option o none)
    (hv : classifyArg opts v = .value) (rest : List (List Char)) (given : List (List Char × ArgValue)) :
    parseFrom cv opts (t :: v :: rest) given = (convertArg cv o.kind v).bind fun x => parseFrom cv opts rest ((o.name, x) :: given) := by
  rw [parseFrom, h]
  dsimp only
  rw [hv]

/-- A setting that may be written like this, of an option of the table. -/
def SettingOk (opts : List ArgOption) (s : Setting) : Prop := (∃ o ∈ opts, o.name = s.name) ∧ (s.joined = true ∨ s.text.head? ≠ some '-')

theorem parse_setting {cv : Conversions} {opts : List ArgOption} (h : NamesOk opts) {s : Setting} {o : ArgOption} (ho : o ∈ opts) (hs : o.name = s.name)
    (hj : s.joined = true ∨ s.text.head? ≠ some '-') (rest : List (List Char)) (given : List (List Char × ArgValue)) :
    parseFrom cv opts (s.written ++ rest) given = (convertArg cv o.kind s.text).bind fun x => parseFrom cv opts rest ((o.name, x) :: given) := by
  by_cases hc : s.joined = true
  · have : s.written = ['-' :: '-' :: o.name ++ '=' :: s.text] := by
      unfold Setting.written
      rw [if_pos hc, hs]
      simp
    rw [this]
    exact parseFrom_text (classify_joined h ho s.text) rest given
  · have : s.written = ['-' :: '-' :: o.name, s.text] := by
      unfold Setting.written
      rw [if_neg hc, hs]
      simp
    rw [this]
    exact parseFrom_next (classify_name h ho) (classify_value opts (hj.resolve_left hc)) rest given

/-- What the settings give, the last one first. -/
def Gives (cv : Conversions) (opts : List ArgOption) : List Setting → List (List Char × ArgValue) → List (List Char × ArgValue) → Prop
  | [], given, r => r = given
  | s :: ss, given, r => ∃ o ∈ opts, o.name = s.name ∧ ∃ x, convertArg cv o.kind s.text = some x ∧ Gives cv opts ss ((o.name, x) :: given) r

theorem parse_settings {cv : Conversions} {opts : List ArgOption} (h : NamesOk opts) : ∀ {ss : List Setting}, (∀ s ∈ ss, SettingOk opts s) →
    ∀ given r, parseFrom cv opts (commandLine ss) given = some r ↔ Gives cv opts ss given r
  | [], _, given, r => by
    show some given = some r ↔ r = given
    rw [Option.some_inj]; exact eq_comm
  | s :: ss, hs, given, r => by
    obtain ⟨⟨o, ho, hon⟩, hj⟩ := hs s List.mem_cons_self
    have : commandLine (s :: ss) = s.written ++ commandLine ss := rfl
    rw [this, parse_setting h ho hon hj]
    have ih := parse_settings (cv := cv) h (fun q hq => hs q (List.mem_cons_of_mem _ hq))
    constructor
    · intro hr
      rw [Option.bind_eq_some_iff] at hr
      obtain ⟨x, hx, hr⟩ := hr
      exact ⟨o, ho, hon, x, hx, (ih _ _).1 hr⟩
    · rintro ⟨o', ho', hon', x, hx, hr⟩
      have : o' = o := List.inj_on_of_nodup_map h.1 ho' ho (hon'.trans hon.symm)
      subst this
      rw [hx]
      exact (ih _ _).2 hr

theorem lookup_opts {opts : List ArgOption} (h : (opts.map ArgOption.name).Nodup) {o : ArgOption} (ho : o ∈ opts) (f : ArgOption → ArgValue) :
    (opts.map fun o => (o.name, f o)).lookup o.name = some (f o) := by
  induction opts with
  | nil => cases ho
  | cons a l ih =>
    rw [List.map_cons, List.nodup_cons] at h
    rw [List.map_cons, List.lookup_cons]
    rcases List.mem_cons.mp ho with rfl | hol
    · simp
    · have : (o.name == a.name) = false := by
        rw [beq_eq_false_iff_ne]
        intro hc
        exact h.1 (hc ▸ List.mem_map_of_mem hol)
      rw [this]
      exact ih h.2 hol

theorem gives_notSaid {cv : Conversions} {opts : List ArgOption} {name : List Char} : ∀ {ss : List Setting} {given r}, Gives cv opts ss given r →
    NotSaid ss name → r.lookup name = given.lookup name
  | [], _, _, h, _ => by rw [show _ = _ from h]
  | s :: ss, given, r, ⟨o, _, hon, x, _, h⟩, hn => by
    rw [gives_notSaid h fun q hq => hn q (List.mem_cons_of_mem _ hq), List.lookup_cons]
    have : (name == o.name) = false := by
      rw [beq_eq_false_iff_ne, hon]; exact (hn s List.mem_cons_self).symm
    rw [this]

theorem gives_lastSaid {cv : Conversions} {opts : List ArgOption} (h : NamesOk opts) {o : ArgOption} (ho : o ∈ opts) {text : List Char} :
    ∀ {ss : List Setting} {given r}, Gives cv opts ss given r → LastSaid ss o.name text →
    ∃ x, convertArg cv o.kind text = some x ∧ r.lookup o.name = some x
  | [], _, _, _, ⟨b, a, j, e, _⟩ => by cases b <;> cases e
  | s :: ss, given, r, ⟨o', ho', hon, x, hx, hr⟩, ⟨b, a, j, e, ha⟩ => by
    cases b with
    | nil =>
      rw [List.nil_append, List.cons.injEq] at e
      obtain ⟨rfl, rfl⟩ := e
      have : o' = o := List.inj_on_of_nodup_map h.1 ho' ho hon
      subst this
      refine ⟨x, hx, ?_⟩
      rw [gives_notSaid hr ha]
      simp
    | cons q b =>
      rw [List.cons_append, List.cons.injEq] at e
      exact gives_lastSaid h ho hr ⟨b, a, j, e.2, ha⟩

theorem gives_total {cv : Conversions} {opts : List ArgOption} (h : NamesOk opts) : ∀ {ss : List Setting}, (∀ s ∈ ss, SettingOk opts s) →
    (∀ s ∈ ss, ∀ o ∈ opts, o.name = s.name → convertArg cv o.kind s.text ≠ none) → ∀ given, ∃ r, Gives cv opts ss given r
  | [], _, _, given => ⟨given, rfl⟩
  | s :: ss, hs, hc, given => by
    obtain ⟨⟨o, ho, hon⟩, hj⟩ := hs s List.mem_cons_self
    obtain ⟨x, hx⟩ := Option.ne_none_iff_exists'.mp (hc s List.mem_cons_self o ho hon)
    obtain ⟨r, hr⟩ := gives_total h (fun q hq => hs q (List.mem_cons_of_mem _ hq)) (fun q hq => hc q (List.mem_cons_of_mem _ hq)) ((o.name, x) :: given)
    exact ⟨r, o, ho, hon, x, hx, hr⟩

theorem gives_convertible {cv : Conversions} {opts : List ArgOption} (h : NamesOk opts) : ∀ {ss : List Setting} {given r}, Gives cv opts ss given r →
    ∀ s ∈ ss, ∀ o ∈ opts, o.name = s.name → convertArg cv o.kind s.text ≠ none
  | [], _, _, _, s, hs, _, _, _ => by cases hs
  | s :: ss, given, r, ⟨o', ho', hon', x, hx, hr⟩, q, hq, o, ho, hon => by
    rcases List.mem_cons.mp hq with rfl | hq
    · have : o' = o := List.inj_on_of_nodup_map h.1 ho' ho (hon'.trans hon.symm)
      subst this
      rw [hx]; exact Option.some_ne_none x
    · exact gives_convertible h hr q hq o ho hon

theorem notSaid_or_lastSaid (ss : List Setting) (name : List Char) : NotSaid ss name ∨ ∃ text, LastSaid ss name text := by
  induction ss with
  | nil => exact .inl fun s hs => by cases hs
  | cons s ss ih =>
    rcases ih with ih | ⟨t, b, a, j, e, ha⟩
    · by_cases hs : s.name = name
      · refine .inr ⟨s.text, [], ss, s.joined, ?_, ih⟩
        rw [← hs]; rfl
      · refine .inl fun q hq => ?_
        rcases List.mem_cons.mp hq with rfl | hq
        · exact hs
        · exact ih q hq
    · exact .inr ⟨t, s :: b, a, j, by rw [e]; rfl, ha⟩

theorem classify_option {opts : List ArgOption} {t : List Char} {o : ArgOption} {w : Option (List Char)} (h : classifyArg opts t = .option o w) :
    o ∈ opts ∧ (w = none ∨ w = afterEq t) := by
  unfold classifyArg at h
  split at h
  · cases h
  split at h
  · rename_i o' ho
    cases h
    exact ⟨List.mem_of_find?_eq_some ho, .inl rfl⟩
  split at h
  · cases h
  split at h
  · rename_i o' ho
    cases h
    exact ⟨List.mem_of_find?_eq_some ho, .inr rfl⟩
  split at h
  · rename_i o' hf _
    cases h
    refine ⟨?_, .inr rfl⟩
    have : o ∈ opts.filter (fun o => ['-', '-'].isPrefixOf t && (beforeEq t).isPrefixOf ('-' :: '-' :: o.name)) := by rw [hf]; exact List.mem_cons_self
    exact (List.mem_filter.mp this).1
  · cases h
  · cases h
  · split at h
    · cases h
    split at h
    · cases h
    split at h <;> cases h

/-- Every value given on an accepted command line was converted from an argument or the part after its first `=`. -/
theorem given_from {cv : Conversions} {opts : List ArgOption} {P : ArgOption → ArgValue → Prop} : ∀ (args : List (List Char)),
    (∀ o w x, (w ∈ args ∨ ∃ t ∈ args, afterEq t = some w) → convertArg cv o.kind w = some x → P o x) →
    ∀ (given r : List (List Char × ArgValue)), parseFrom cv opts args given = some r → ∀ q ∈ r, q ∈ given ∨ ∃ o ∈ opts, o.name = q.1 ∧ P o q.2
  | [], _, given, r, h, q, hq => by
    rw [parseFrom] at h
    cases h
    exact .inl hq
  | [t], hP, given, r, h, q, hq => by
    rw [parseFrom] at h
    split at h
    · rename_i o w hc
      obtain ⟨x, hx, rfl⟩ := Option.map_eq_some_iff.mp h
      obtain ⟨h1, h2⟩ := classify_option hc
      rcases List.mem_cons.mp hq with rfl | hq
      · refine .inr ⟨o, h1, rfl, hP o w x (.inr ⟨t, by simp, ?_⟩) hx⟩
        rcases h2 with h2 | h2
        · cases h2
        · exact h2.symm
      · exact .inl hq
    · cases h
  | t :: v :: rest, hP, given, r, h, q, hq => by
    rw [parseFrom] at h
    split at h
    · rename_i o w hc
      obtain ⟨x, hx, h⟩ := Option.bind_eq_some_iff.mp h
      obtain ⟨h1, h2⟩ := classify_option hc
      rcases given_from (v :: rest) (fun o w x hw => hP o w x (hw.imp (List.mem_cons_of_mem _) fun ⟨t, ht, e⟩ => ⟨t, List.mem_cons_of_mem _ ht, e⟩)) _ r h q hq with hg | hg
      · rcases List.mem_cons.mp hg with rfl | hg
        · refine .inr ⟨o, h1, rfl, hP o w x (.inr ⟨t, by simp, ?_⟩) hx⟩
          rcases h2 with h2 | h2
          · cases h2
          · exact h2.symm
        · exact .inl hg
      · exact .inr hg
    · rename_i o hc
      obtain ⟨h1, h2⟩ := classify_option hc
      split at h
      · obtain ⟨x, hx, h⟩ := Option.bind_eq_some_iff.mp h
        rcases given_from rest (fun o w x hw => hP o w x (hw.imp (fun hm => List.mem_cons_of_mem _ (List.mem_cons_of_mem _ hm))
          fun ⟨t, ht, e⟩ => ⟨t, List.mem_cons_of_mem _ (List.mem_cons_of_mem _ ht), e⟩)) _ r h q hq with hg | hg
        · rcases List.mem_cons.mp hg with rfl | hg
          · exact .inr ⟨o, h1, rfl, hP o v x (.inl (by simp)) hx⟩
          · exact .inl hg
        · exact .inr hg
      · cases h
    · cases h

theorem singleton_of_mem {α : Type} {l : List α} {a : α} (hn : l.Nodup) (h : ∀ x, x ∈ l ↔ x = a) : l = [a] := by
  cases l with
  | nil => exact absurd ((h a).2 rfl) List.not_mem_nil
  | cons b l =>
    have hb : b = a := (h b).1 List.mem_cons_self
    subst hb
    cases l with
    | nil => rfl
    | cons c l =>
      have hc : c = b := (h c).1 (List.mem_cons_of_mem _ List.mem_cons_self)
      subst hc
      exact absurd List.mem_cons_self (List.nodup_cons.mp hn).1

/-- An abbreviation of exactly one name. -/
theorem classify_short {opts : List ArgOption} (h : NamesOk opts) {o : ArgOption} (ho : o ∈ opts) {p : List Char} (hp : p <+: o.name)
    (hu : ∀ q ∈ opts, p <+: q.name → q = o) (hh : ¬ p <+: "help".toList) (v : List Char) :
    classifyArg opts ('-' :: '-' :: p ++ '=' :: v) = .option o (some v) := by
  by_cases hq : ∃ q ∈ opts, q.name = p
  · obtain ⟨q, hq, rfl⟩ := hq
    have := hu q hq (List.prefix_refl _)
    subst this
    exact classify_joined h ho v
  have hpe : '=' ∉ p := fun hc => h.2 o ho (hp.subset hc)
  have hn : '=' ∉ '-' :: '-' :: p := by simp [hpe]
  have hb := before_append hn v
  have ha := after_append hn v
  unfold classifyArg
  rw [if_neg (by simp)]
  have e1 : opts.find? (fun q => '-' :: '-' :: q.name == '-' :: '-' :: p ++ '=' :: v) = none := by
    rw [List.find?_eq_none]
    intro q hq hc
    have : q.name = p ++ '=' :: v := by simpa using hc
    exact h.2 q hq (by rw [this]; simp)
  have e2 : opts.find? (fun q => '-' :: '-' :: q.name == '-' :: '-' :: p && ('-' :: '-' :: p ++ '=' :: v).contains '=') = none := by
    rw [List.find?_eq_none]
    intro q hq' hc
    exact hq ⟨q, hq', by simpa using hc⟩
  have e3 : opts.filter (fun q => ['-', '-'].isPrefixOf ('-' :: '-' :: p ++ '=' :: v) && ('-' :: '-' :: p).isPrefixOf ('-' :: '-' :: q.name)) = [o] := by
    refine singleton_of_mem (h.1.of_map.filter _) fun q => ?_
    rw [List.mem_filter]
    constructor
    · rintro ⟨h1, h2⟩
      refine hu q h1 ?_
      simpa using h2
    · rintro rfl
      refine ⟨ho, ?_⟩
      simpa using hp
  have e4 : (['-', '-'].isPrefixOf ('-' :: '-' :: p ++ '=' :: v) && ('-' :: '-' :: p).isPrefixOf "--help".toList) = false := by
    rw [← Bool.not_eq_true]
    intro hc
    refine hh ?_
    have : "--help".toList = '-' :: '-' :: "help".toList := by decide
    rw [this] at hc
    simpa using hc
  rw [e1]
  dsimp only
  rw [if_neg (by simp), hb, ha, e2]
  dsimp only
  rw [e3, e4]

theorem negative_iff (t : List Char) : looksNegative t = true ↔ NegativeText t := by
  constructor
  · intro h
    unfold looksNegative at h
    split at h
    · next s =>
      simp only [Bool.or_eq_true, Bool.and_eq_true, Bool.not_eq_true', List.isEmpty_eq_false_iff, List.all_eq_true, beq_iff_eq] at h
      rcases h with ⟨h1, h2⟩ | ⟨⟨h1, h2⟩, h3⟩
      · exact Or.inl ⟨s, rfl, h1, h2⟩
      · refine Or.inr ⟨s.takeWhile Char.isDigit, (s.dropWhile Char.isDigit).drop 1, ?_, h2, fun c hc => List.all_eq_true.mp List.all_takeWhile c hc, h3⟩
        congr 1
        obtain ⟨x, l, hl⟩ : ∃ x l, s.dropWhile Char.isDigit = x :: l := by
          cases hd : s.dropWhile Char.isDigit with
          | nil => rw [hd] at h1; cases h1
          | cons x l => exact ⟨x, l, rfl⟩
        rw [hl] at h1 ⊢
        simp only [List.head?_cons, Option.some.injEq] at h1
        subst h1
        have := List.takeWhile_append_dropWhile (p := Char.isDigit) (l := s)
        rw [hl] at this
        simpa using this.symm
    · cases h
  · rintro (⟨a, rfl, h1, h2⟩ | ⟨a, b, rfl, h1, h2, h3⟩)
    · simp only [looksNegative, Bool.or_eq_true, Bool.and_eq_true, Bool.not_eq_true', List.isEmpty_eq_false_iff, List.all_eq_true, beq_iff_eq]
      exact Or.inl ⟨h1, h2⟩
    · have e : (a ++ '.' :: b).dropWhile Char.isDigit = '.' :: b := by
        rw [List.dropWhile_append_of_pos h2, List.dropWhile_cons_of_neg (by decide)]
      simp only [looksNegative, e, List.head?_cons, List.drop_succ_cons, List.drop_zero, Bool.or_eq_true, Bool.and_eq_true, Bool.not_eq_true', List.isEmpty_eq_false_iff, List.all_eq_true, beq_iff_eq]
      exact Or.inr ⟨⟨trivial, h1⟩, h3⟩

/-- An argument with one dash. -/
theorem classify_dash (opts : List ArgOption) {c : Char} {r : List Char} (h1 : c ≠ '-') (h2 : c ≠ 'h') :
    classifyArg opts ('-' :: c :: r) = if looksNegative ('-' :: c :: r) || ('-' :: c :: r).contains ' ' then .value else .wrong := by
  have p1 : ∀ l : List Char, (['-', '-'].isPrefixOf ('-' :: c :: l)) = false := by
    intro l
    have : ('-' == c) = false := beq_eq_false_iff_ne.mpr h1.symm
    simp [List.isPrefixOf, this]
  have e1 : opts.find? (fun q => '-' :: '-' :: q.name == '-' :: c :: r) = none := by
    rw [List.find?_eq_none]
    intro q hq hc
    simp only [beq_iff_eq, List.cons.injEq] at hc
    exact h1 hc.2.1.symm
  have e2 : opts.find? (fun q => '-' :: '-' :: q.name == beforeEq ('-' :: c :: r) && ('-' :: c :: r).contains '=') = none := by
    rw [List.find?_eq_none]
    intro q hq hc
    rw [Bool.and_eq_true, beq_iff_eq] at hc
    have hb := hc.1
    unfold beforeEq at hb
    rw [List.takeWhile_cons_of_pos (by decide)] at hb
    by_cases hce : c = '='
    · rw [List.takeWhile_cons_of_neg (by simp [hce])] at hb
      simp at hb
    · rw [List.takeWhile_cons_of_pos (by simp [hce])] at hb
      simp only [List.cons.injEq] at hb
      exact h1 hb.2.1.symm
  unfold classifyArg
  rw [if_neg (by simp), e1]
  dsimp only
  rw [if_neg (by simp), e2]
  dsimp only
  simp only [p1, Bool.false_and, List.filter_false]
  rw [if_neg (by simp [h2.symm])]
  by_cases hl : looksNegative ('-' :: c :: r) = true
  · simp [hl]
  · simp [hl]

/-- One more argument with a text at the end. -/
theorem parse_snoc {cv : Conversions} {opts : List ArgOption} {t w : List Char} {o : ArgOption} (ht : classifyArg opts t = .option o (some w)) :
    ∀ (args : List (List Char)) (given : List (List Char × ArgValue)), parseFrom cv opts (args ++ [t]) given =
      (parseFrom cv opts args given).bind fun r => (convertArg cv o.kind w).map fun x => (o.name, x) :: r
  | [], given => by
    rw [List.nil_append, parseFrom_text ht]
    show _ = (convertArg cv o.kind w).map fun x => (o.name, x) :: given
    cases convertArg cv o.kind w <;> rfl
  | [s], given => by
    rw [List.singleton_append]
    cases hc : classifyArg opts s with
    | value => simp only [parseFrom, hc, Option.bind_none]
    | wrong => simp only [parseFrom, hc, Option.bind_none]
    | option o' w' =>
      cases w' with
      | none => simp only [parseFrom, hc, ht, Option.bind_none]
      | some w' =>
        rw [parseFrom_text hc, parseFrom_text hc, Option.bind_assoc]
        congr 1
        funext x
        exact parse_snoc ht [] _
  | s :: v :: rest, given => by
    rw [List.cons_append, List.cons_append]
    cases hc : classifyArg opts s with
    | value => simp only [parseFrom, hc, Option.bind_none]
    | wrong => simp only [parseFrom, hc, Option.bind_none]
    | option o' w' =>
      cases w' with
      | none =>
        by_cases hv : classifyArg opts v = .value
        · rw [parseFrom_next hc hv, parseFrom_next hc hv, Option.bind_assoc]
          congr 1
          funext x
          exact parse_snoc ht rest _
        · cases hv' : classifyArg opts v with
          | value => exact absurd hv' hv
          | wrong => simp only [parseFrom, hc, hv', Option.bind_none]
          | option a b => simp only [parseFrom, hc, hv', Option.bind_none]
      | some w' =>
        rw [parseFrom_text hc, parseFrom_text hc, Option.bind_assoc]
        congr 1
        funext x
        exact parse_snoc ht (v :: rest) _

end Verif.Proofs
