import Verif.Model.KcTeams
import Verif.Spec.Teams
import Verif.Proofs.Loops
import Verif.Proofs.KsatGen
import Mathlib.Tactic.IntervalCases

/-! Helper lemmas for the generation of teams. -/

namespace Verif.Proofs
open Verif Model Spec

/-- What one unit receives in one table: `append` and `extend`. -/
def block (x s : ℕ) : List ℕ := x :: List.replicate (s - 1) x

theorem block_pos {x s : ℕ} (h : 0 < s) : block x s = List.replicate s x := by
  obtain ⟨k, rfl⟩ := Nat.exists_eq_succ_of_ne_zero h.ne'
  rfl

theorem pushTeams_eq {table : List (List ℕ)} {u x s : ℕ} (h : u - 1 < table.length) :
    pushTeams table u x s = some (table.set (u - 1) (table.getD (u - 1) [] ++ block x s)) := by
  unfold pushTeams
  rw [List.getElem?_eq_getElem h]
  simp [block, List.getD_eq_getElem?_getD, h]

/-- The tables have one list per unit. -/
def Shaped (n : ℕ) (st : TeamGen) : Prop := st.weights.length = n ∧ st.types.length = n

theorem addUnit_spec {n t u x s : ℕ} {st : TeamGen} (hs : Shaped n st) (hu : 1 ≤ u ∧ u ≤ n) :
    ∃ st', addUnit t u x s st = some st' ∧ Shaped n st' ∧ st'.rewards = st.rewards ∧
      (∀ d, st'.weights.getD d [] = st.weights.getD d [] ++ (if d + 1 = u then block x s else [])) ∧
      (∀ d, st'.types.getD d [] = st.types.getD d [] ++ (if d + 1 = u then block t s else [])) := by
  unfold addUnit
  rw [pushTeams_eq (by rw [hs.1]; omega), pushTeams_eq (by rw [hs.2]; omega)]
  refine ⟨_, rfl, ⟨by simp [hs.1], by simp [hs.2]⟩, rfl, fun d => ?_, fun d => ?_⟩
  · simp only
    rw [getD_set _ _ _ _ _ (by rw [hs.1]; omega)]
    by_cases h : d + 1 = u
    · rw [if_pos (by omega), if_pos h, show u - 1 = d by omega]
    · rw [if_neg (by omega), if_neg h, List.append_nil]
  · simp only
    rw [getD_set _ _ _ _ _ (by rw [hs.2]; omega)]
    by_cases h : d + 1 = u
    · rw [if_pos (by omega), if_pos h, show u - 1 = d by omega]
    · rw [if_neg (by omega), if_neg h, List.append_nil]

/-- Capacity of unit `d` (numbered from 1). -/
def capOf (caps : List ℕ) (d : ℕ) : ℕ := caps.getD (d - 1) 0

theorem need_same (u t d : ℕ) : need (u, u, t) d = if d = u then (crew t).1 + (crew t).2 else 0 := by
  unfold need; split_ifs <;> simp_all

theorem need_two {u v : ℕ} (h : u ≠ v) (t d : ℕ) :
    need (u, v, t) d = if d = u then (crew t).1 else if d = v then (crew t).2 else 0 := by
  unfold need
  by_cases h1 : d = u
  · subst h1; simp [h]
  · simp [h1]

theorem count_same {cap : ℕ → ℕ} {u t : ℕ} (h : 0 < (crew t).1 + (crew t).2) {c : ℕ} (hc : c = cap u / ((crew t).1 + (crew t).2)) :
    IsCount cap (u, u, t) c := by
  refine ⟨fun _ => ⟨fun d => ?_, fun m hm => ?_⟩, fun hn => absurd (Or.inr rfl) hn⟩
  · rw [need_same]
    split_ifs with hd
    · subst hd; rw [hc]; exact Nat.div_mul_le_self _ _
    · simp
  · have := hm u
    rw [need_same, if_pos rfl] at this
    rw [hc]; exact (Nat.le_div_iff_mul_le h).mpr this

theorem count_two {cap : ℕ → ℕ} {u v t : ℕ} (huv : u ≠ v) (h : 0 < (crew t).1) (h' : 0 < (crew t).2) {c : ℕ}
    (hc : c = min (cap u / (crew t).1) (cap v / (crew t).2)) : IsCount cap (u, v, t) c := by
  refine ⟨fun _ => ⟨fun d => ?_, fun m hm => ?_⟩, fun hn => absurd (Or.inl h'.ne') hn⟩
  · rw [need_two huv]
    split_ifs with hd hd'
    · subst hd
      exact (Nat.le_div_iff_mul_le h).mp (by rw [hc]; exact min_le_left _ _)
    · subst hd'
      exact (Nat.le_div_iff_mul_le h').mp (by rw [hc]; exact min_le_right _ _)
    · simp
  · have a := hm u
    have b := hm v
    rw [need_two huv, if_pos rfl] at a
    rw [need_two huv, if_neg (Ne.symm huv), if_pos rfl] at b
    rw [hc]; exact le_min ((Nat.le_div_iff_mul_le h).mpr a) ((Nat.le_div_iff_mul_le h').mpr b)

/-- The reward of a kind. -/
def rewardOf (d : TeamData) (k : ℕ × ℕ × ℕ) : ℤ :=
  d.dist (k.2.1 - 1) (k.1 - 1) + d.fu (k.1 - 1) - d.k1 + (if (crew k.2.2).2 = 0 then 0 else d.wu (k.2.1 - 1))

/-- What a branch leaves behind. -/
structure BranchOut (d : TeamData) (n : ℕ) (cap : ℕ → ℕ) (k : ℕ × ℕ × ℕ) (st st' : TeamGen) (c : ℕ) : Prop where
  shaped : Shaped n st'
  rewards : st'.rewards = st.rewards
  size : st'.size = some c
  count : IsCount cap k c
  rest : c ≠ 0 → st'.reward = some (rewardOf d k) ∧ ∃ us, st'.remaining = some (otherUnits n us) ∧ ∀ x, x ∈ us ↔ x = k.1 ∨ x = k.2.1
  weights : (RealKind k → c ≠ 0) → ∀ x, st'.weights.getD x [] = st.weights.getD x [] ++
    (if x + 1 = k.1 ∨ x + 1 = k.2.1 then List.replicate c (need k (x + 1)) else [])
  types : (RealKind k → c ≠ 0) → ∀ x, st'.types.getD x [] = st.types.getD x [] ++
    (if x + 1 = k.1 ∨ x + 1 = k.2.1 then List.replicate c k.2.2 else [])

theorem singleType_spec {d : TeamData} {n u v t c : ℕ} {cap : ℕ → ℕ} {st : TeamGen} (hs : Shaped n st) (hu : 1 ≤ u ∧ u ≤ n)
    (hw : (crew t).2 = 0) (hf : 0 < (crew t).1) (hfc : fightersCount t = (crew t).1) (hc : c = cap u / (crew t).1) :
    ∃ st' c', singleType d n u v t c st = some st' ∧ BranchOut d n cap (u, v, t) st st' c' := by
  unfold singleType
  by_cases h : u = v
  · subst h
    rw [if_pos rfl]
    obtain ⟨st', h1, h2, h3, h4, h5⟩ := addUnit_spec (t := t) (x := fightersCount t) (s := c) hs hu
    rw [h1, Option.bind_eq_bind, Option.bind_some]
    refine ⟨_, c, rfl, ⟨h2, h3, rfl, count_same (by omega) (by rw [hw, Nat.add_zero]; exact hc),
      fun _ => ⟨?_, _, rfl, by simp⟩, fun hcc x => ?_, fun hcc x => ?_⟩⟩
    · simp [rewardOf, baseReward, hw]
    · simp only [or_self]
      rw [h4 x, block_pos (Nat.pos_of_ne_zero (hcc (Or.inr rfl)))]
      split_ifs with hx
      · rw [need_same, if_pos hx, hw, Nat.add_zero, hfc]
      · rfl
    · simp only [or_self]
      rw [h5 x, block_pos (Nat.pos_of_ne_zero (hcc (Or.inr rfl)))]
  · rw [if_neg h]
    have hn : ¬ RealKind (u, v, t) := by unfold RealKind; simp [hw, h]
    refine ⟨_, 0, rfl, ⟨hs, rfl, rfl, ⟨fun he => absurd he hn, fun _ => rfl⟩, fun h0 => absurd rfl h0, fun _ x => by simp, fun _ x => by simp⟩⟩

theorem pairType_spec {d : TeamData} {n u v t same two : ℕ} {cap : ℕ → ℕ} {st : TeamGen} (hs : Shaped n st) (hu : 1 ≤ u ∧ u ≤ n)
    (hv : 1 ≤ v ∧ v ≤ n) (hw : 0 < (crew t).2) (hf : 0 < (crew t).1) (hfc : fightersCount t = (crew t).1)
    (hwc : weaselsCount t = (crew t).2) (hsame : same = cap u / ((crew t).1 + (crew t).2))
    (htwo : two = min (cap u / (crew t).1) (cap v / (crew t).2)) :
    ∃ st' c', pairType d n u v t same two st = some st' ∧ BranchOut d n cap (u, v, t) st st' c' := by
  unfold pairType
  by_cases h : u = v
  · subst h
    rw [if_pos rfl]
    obtain ⟨st', h1, h2, h3, h4, h5⟩ := addUnit_spec (t := t) (x := fightersCount t + weaselsCount t) (s := same) hs hu
    rw [h1, Option.bind_eq_bind, Option.bind_some]
    refine ⟨_, same, rfl, ⟨h2, h3, rfl, count_same (by omega) hsame,
      fun _ => ⟨?_, _, rfl, by simp⟩, fun hcc x => ?_, fun hcc x => ?_⟩⟩
    · simp [rewardOf, baseReward, hw.ne']
    · simp only [or_self]
      rw [h4 x, block_pos (Nat.pos_of_ne_zero (hcc (Or.inr rfl)))]
      split_ifs with hx
      · rw [need_same, if_pos hx, hfc, hwc]
      · rfl
    · simp only [or_self]
      rw [h5 x, block_pos (Nat.pos_of_ne_zero (hcc (Or.inr rfl)))]
  · rw [if_neg h]
    obtain ⟨st1, h1, h2, h3, h4, h5⟩ := addUnit_spec (t := t) (x := fightersCount t) (s := two) hs hu
    obtain ⟨st2, k1, k2, k3, k4, k5⟩ := addUnit_spec (t := t) (x := weaselsCount t) (s := two) h2 hv
    rw [h1, Option.bind_eq_bind, Option.bind_some, k1, Option.bind_some]
    refine ⟨_, two, rfl, ⟨k2, k3.trans h3, rfl, count_two h hf hw htwo,
      fun _ => ⟨?_, _, rfl, by simp⟩, fun hcc x => ?_, fun hcc x => ?_⟩⟩
    · simp [rewardOf, baseReward, hw.ne']
    · simp only
      have hp := block_pos (x := fightersCount t) (Nat.pos_of_ne_zero (hcc (Or.inl hw.ne')))
      have hp' := block_pos (x := weaselsCount t) (Nat.pos_of_ne_zero (hcc (Or.inl hw.ne')))
      rw [k4 x, h4 x, hp, hp', need_two h, hfc, hwc, List.append_assoc]
      by_cases hx : x + 1 = u
      · rw [if_pos hx, if_neg (by omega), if_pos (Or.inl hx), if_pos hx, List.append_nil]
      · by_cases hy : x + 1 = v
        · rw [if_neg hx, if_pos hy, if_pos (Or.inr hy), if_neg hx, if_pos hy, List.nil_append]
        · rw [if_neg hx, if_neg hy, if_neg (by tauto), List.nil_append]
    · simp only
      have hp := block_pos (x := t) (Nat.pos_of_ne_zero (hcc (Or.inl hw.ne')))
      rw [k5 x, h5 x, hp, List.append_assoc]
      by_cases hx : x + 1 = u
      · rw [if_pos hx, if_neg (by omega), if_pos (Or.inl hx), List.append_nil]
      · by_cases hy : x + 1 = v
        · rw [if_neg hx, if_pos hy, if_pos (Or.inr hy), List.nil_append]
        · rw [if_neg hx, if_neg hy, if_neg (by tauto), List.nil_append]

theorem typeBranch_spec {d : TeamData} {caps : List ℕ} {u v t : ℕ} {st : TeamGen} (hs : Shaped caps.length st)
    (hu : 1 ≤ u ∧ u ≤ caps.length) (hv : 1 ≤ v ∧ v ≤ caps.length) (ht : 1 ≤ t ∧ t ≤ 5) :
    ∃ st' c, typeBranch d caps u v t st = some st' ∧ BranchOut d caps.length (capOf caps) (u, v, t) st st' c := by
  have e1 : caps[u - 1]? = some (capOf caps u) := by
    rw [List.getElem?_eq_getElem (by omega)]; simp [capOf, List.getD_eq_getElem?_getD, show u - 1 < caps.length by omega]
  have e2 : caps[v - 1]? = some (capOf caps v) := by
    rw [List.getElem?_eq_getElem (by omega)]; simp [capOf, List.getD_eq_getElem?_getD, show v - 1 < caps.length by omega]
  unfold typeBranch
  rw [e1, e2]
  simp only [Option.bind_eq_bind, Option.bind_some]
  obtain ⟨h1, h5⟩ := ht
  interval_cases t
  · exact singleType_spec hs hu rfl (by decide) rfl (by simp [crew])
  · exact pairType_spec hs hu hv (by decide) (by decide) rfl rfl (by simp [crew]) (by simp [crew])
  · exact singleType_spec hs hu rfl (by decide) rfl (by simp [crew])
  · exact pairType_spec hs hu hv (by decide) (by decide) rfl rfl (by simp [crew]) (by simp [crew])
  · exact pairType_spec hs hu hv (by decide) (by decide) rfl rfl (by simp [crew]) (by simp [crew])

theorem addRest_spec {n t s : ℕ} {l : List ℕ} (hl : ∀ x ∈ l, 1 ≤ x ∧ x ≤ n) (hn : l.Nodup) {st : TeamGen} (hs : Shaped n st) :
    ∃ st', loopList l (fun x st => addUnit t x 0 s st) st = some st' ∧ Shaped n st' ∧ st'.rewards = st.rewards ∧
      (∀ d, st'.weights.getD d [] = st.weights.getD d [] ++ (if d + 1 ∈ l then block 0 s else [])) ∧
      (∀ d, st'.types.getD d [] = st.types.getD d [] ++ (if d + 1 ∈ l then block t s else [])) := by
  induction l generalizing st with
  | nil => exact ⟨st, rfl, hs, rfl, fun d => by simp, fun d => by simp⟩
  | cons a l ih =>
    obtain ⟨st1, h1, h2, h3, h4, h5⟩ := addUnit_spec (t := t) (x := 0) (s := s) hs (hl a (by simp))
    obtain ⟨st2, k1, k2, k3, k4, k5⟩ := ih (fun x hx => hl x (by simp [hx])) (List.nodup_cons.mp hn).2 h2
    refine ⟨st2, by simp only [loopList, h1, Option.bind_some]; exact k1, k2, k3.trans h3, fun d => ?_, fun d => ?_⟩
    · rw [k4, h4, List.append_assoc]
      by_cases h : d + 1 = a
      · rw [if_pos h, if_neg (by rw [h]; exact (List.nodup_cons.mp hn).1), if_pos (by simp [h]), List.append_nil]
      · rw [if_neg h, List.nil_append]; simp [h]
    · rw [k5, h5, List.append_assoc]
      by_cases h : d + 1 = a
      · rw [if_pos h, if_neg (by rw [h]; exact (List.nodup_cons.mp hn).1), if_pos (by simp [h]), List.append_nil]
      · rw [if_neg h, List.nil_append]; simp [h]

theorem IsCount.unique {cap : ℕ → ℕ} {k : ℕ × ℕ × ℕ} {a b : ℕ} (ha : IsCount cap k a) (hb : IsCount cap k b) : a = b := by
  by_cases h : RealKind k
  · exact (ha.1 h).unique (hb.1 h)
  · rw [ha.2 h, hb.2 h]

theorem otherUnits_mem {n : ℕ} {us : List ℕ} {x : ℕ} : x ∈ otherUnits n us ↔ (1 ≤ x ∧ x ≤ n) ∧ x ∉ us := by
  unfold otherUnits
  simp only [List.mem_filter, List.mem_map, List.mem_range, List.contains_eq_mem, Bool.not_eq_true', decide_eq_false_iff_not]
  constructor
  · rintro ⟨⟨a, ha, rfl⟩, h⟩; exact ⟨by omega, h⟩
  · rintro ⟨h, h'⟩; exact ⟨⟨x - 1, by omega, by omega⟩, h'⟩

theorem otherUnits_nodup {n : ℕ} {us : List ℕ} : (otherUnits n us).Nodup :=
  ((List.nodup_range).map (fun _ _ h => by simpa using h)).filter _

theorem genType_spec {d : TeamData} {caps : List ℕ} {u v t : ℕ} {st : TeamGen} {arr : List ℕ} (hs : Shaped caps.length st)
    (hu : 1 ≤ u ∧ u ≤ caps.length) (hv : 1 ≤ v ∧ v ≤ caps.length) (ht : 1 ≤ t ∧ t ≤ 5) :
    ∃ st' c, genType d caps u v t (st, arr) = some (st', arr ++ [c]) ∧ IsCount (capOf caps) (u, v, t) c ∧ Shaped caps.length st' ∧
      st'.rewards = st.rewards ++ List.replicate c (rewardOf d (u, v, t)) ∧
      ((RealKind (u, v, t) → c ≠ 0) → ∀ x < caps.length,
        st'.weights.getD x [] = st.weights.getD x [] ++ List.replicate c (need (u, v, t) (x + 1)) ∧
        st'.types.getD x [] = st.types.getD x [] ++ List.replicate c t) := by
  obtain ⟨st1, c, h1, h⟩ := typeBranch_spec (d := d) hs hu hv ht
  unfold genType
  simp only [h1, Option.bind_eq_bind, Option.bind_some, h.size]
  by_cases hc : c = 0
  · subst hc
    rw [if_neg (by simp)]
    refine ⟨st1, 0, rfl, h.count, h.shaped, by simp [h.rewards], fun hf x hx => ⟨?_, ?_⟩⟩
    · rw [h.weights hf]; simp
    · rw [h.types hf]; simp
  · rw [if_pos hc]
    obtain ⟨r1, us, r2, r3⟩ := h.rest hc
    rw [r1, r2]
    simp only [Option.bind_some]
    obtain ⟨st2, k1, k2, k3, k4, k5⟩ := addRest_spec (t := t) (s := c) (l := otherUnits caps.length us)
      (st := { st1 with rewards := st1.rewards ++ rewardOf d (u, v, t) :: List.replicate (c - 1) (rewardOf d (u, v, t)) })
      (fun x hx => (otherUnits_mem.mp hx).1) otherUnits_nodup h.shaped
    rw [r1, r2, h.size] at k1
    rw [k1]
    refine ⟨st2, c, rfl, h.count, k2, ?_, fun hf x hx => ⟨?_, ?_⟩⟩
    · rw [k3]
      simp only [h.rewards]
      obtain ⟨k, rfl⟩ := Nat.exists_eq_succ_of_ne_zero hc
      rfl
    · rw [k4, block_pos (Nat.pos_of_ne_zero hc)]
      simp only
      rw [h.weights hf, List.append_assoc]
      by_cases hx' : x + 1 = u ∨ x + 1 = v
      · rw [if_pos hx', if_neg (by rw [otherUnits_mem, r3]; tauto), List.append_nil]
      · rw [if_neg hx', if_pos (by rw [otherUnits_mem, r3]; exact ⟨by omega, hx'⟩), List.nil_append]
        have h0 : need (u, v, t) (x + 1) = 0 := by
          unfold need; rw [if_neg (by tauto), if_neg (by tauto)]
        rw [h0]
    · rw [k5, block_pos (Nat.pos_of_ne_zero hc)]
      simp only
      rw [h.types hf, List.append_assoc]
      by_cases hx' : x + 1 = u ∨ x + 1 = v
      · rw [if_pos hx', if_neg (by rw [otherUnits_mem, r3]; tauto), List.append_nil]
      · rw [if_neg hx', if_pos (by rw [otherUnits_mem, r3]; exact ⟨by omega, hx'⟩), List.nil_append]

/-- The number of teams of every kind. -/
noncomputable def countOf (cap : ℕ → ℕ) (k : ℕ × ℕ × ℕ) : ℕ := by
  classical exact if h : ∃ c, IsCount cap k c then h.choose else 0

theorem countOf_eq {cap : ℕ → ℕ} {k : ℕ × ℕ × ℕ} {c : ℕ} (h : IsCount cap k c) : countOf cap k = c := by
  have hex : ∃ c, IsCount cap k c := ⟨c, h⟩
  unfold countOf
  rw [dif_pos hex]
  exact IsCount.unique hex.choose_spec h

/-- The tables describe the teams `K`. -/
structure Describes (d : TeamData) (n : ℕ) (fit : Prop) (K : List (ℕ × ℕ × ℕ)) (st : TeamGen) : Prop where
  shaped : Shaped n st
  rewards : st.rewards = K.map (rewardOf d)
  tables : fit → ∀ x < n, st.weights.getD x [] = K.map (fun k => need k (x + 1)) ∧ st.types.getD x [] = K.map (fun k => k.2.2)

theorem genPair_types {d : TeamData} {caps : List ℕ} {u v : ℕ} {fit : Prop} (hu : 1 ≤ u ∧ u ≤ caps.length)
    (hv : 1 ≤ v ∧ v ≤ caps.length) {types : List ℕ} (ht : TypesOk types)
    (hf : fit → ∀ t ∈ types, RealKind (u, v, t) → countOf (capOf caps) (u, v, t) ≠ 0)
    {K : List (ℕ × ℕ × ℕ)} {st : TeamGen} {arr : List ℕ} (h : Describes d caps.length fit K st) :
    ∃ st', loopList types (fun t s => genType d caps u v t s) (st, arr) =
        some (st', arr ++ types.map (fun t => countOf (capOf caps) (u, v, t))) ∧
      (∀ t ∈ types, IsCount (capOf caps) (u, v, t) (countOf (capOf caps) (u, v, t))) ∧
      Describes d caps.length fit (K ++ types.flatMap (fun t => List.replicate (countOf (capOf caps) (u, v, t)) (u, v, t))) st' := by
  induction types generalizing st arr K with
  | nil => exact ⟨st, by simp [loopList], by simp, by simpa using h⟩
  | cons t types ih =>
    obtain ⟨st1, c, h1, h2, h3, h4, h5⟩ := genType_spec (d := d) (arr := arr) h.shaped hu hv (ht t (by simp))
    have hc := countOf_eq h2
    subst hc
    obtain ⟨st2, k1, k2, k3⟩ := ih (fun t' ht' => ht t' (by simp [ht'])) (fun hfit t' ht' => hf hfit t' (by simp [ht']))
      (K := K ++ List.replicate (countOf (capOf caps) (u, v, t)) (u, v, t)) (st := st1)
      (arr := arr ++ [countOf (capOf caps) (u, v, t)]) ⟨h3, by rw [h4, h.rewards]; simp, fun hfit x hx => by
        obtain ⟨a, b⟩ := h5 (hf hfit t (by simp)) x hx
        obtain ⟨a', b'⟩ := h.tables hfit x hx
        rw [a, b, a', b']; simp⟩
    refine ⟨st2, by simp only [loopList, h1, Option.bind_some]; rw [k1]; simp, ?_, by simpa using k3⟩
    intro t' ht'
    rcases List.mem_cons.mp ht' with rfl | h'
    · exact h2
    · exact k2 t' h'

theorem genPairs {d : TeamData} {caps types : List ℕ} {fit : Prop} (ht : TypesOk types) {combos : List (ℕ × ℕ)}
    (hp : PairsOk caps.length combos)
    (hf : fit → ∀ c ∈ combos, ∀ t ∈ types, RealKind (c.1, c.2, t) → countOf (capOf caps) (c.1, c.2, t) ≠ 0)
    {K : List (ℕ × ℕ × ℕ)} {st : TeamGen} {sums : List ℕ} (h : Describes d caps.length fit K st) :
    ∃ st', loopList combos (genPair d caps types) (st, sums) =
        some (st', sums ++ combos.map (fun c => (types.map (fun t => countOf (capOf caps) (c.1, c.2, t))).sum)) ∧
      (∀ c ∈ combos, ∀ t ∈ types, IsCount (capOf caps) (c.1, c.2, t) (countOf (capOf caps) (c.1, c.2, t))) ∧
      Describes d caps.length fit (K ++ teams combos types (countOf (capOf caps))) st' := by
  induction combos generalizing st sums K with
  | nil => exact ⟨st, by simp [loopList], by simp, by simpa [teams] using h⟩
  | cons c combos ih =>
    obtain ⟨a1, a2, a3, a4⟩ := hp c (by simp)
    obtain ⟨st1, h1, h2, h3⟩ := genPair_types (d := d) (arr := []) ⟨a1, a2⟩ ⟨a3, a4⟩ ht (fun hfit => hf hfit c (by simp)) h
    obtain ⟨st2, k1, k2, k3⟩ := ih (fun c' hc' => hp c' (by simp [hc'])) (fun hfit c' hc' => hf hfit c' (by simp [hc']))
      (sums := sums ++ [(types.map (fun t => countOf (capOf caps) (c.1, c.2, t))).sum]) h3
    refine ⟨st2, ?_, ?_, by simpa [teams] using k3⟩
    · simp only [loopList]
      have : genPair d caps types c (st, sums) =
          some (st1, sums ++ [(types.map (fun t => countOf (capOf caps) (c.1, c.2, t))).sum]) := by
        unfold genPair; simp only [h1, Option.bind_eq_bind, Option.bind_some, List.nil_append]
      rw [this, Option.bind_some, k1]; simp
    · intro c' hc'
      rcases List.mem_cons.mp hc' with rfl | h'
      · exact h2
      · exact k2 c' h'

theorem generateTeams_spec {d : TeamData} {caps types : List ℕ} {fit : Prop} (ht : TypesOk types) {combos : List (ℕ × ℕ)}
    (hp : PairsOk caps.length combos)
    (hf : fit → ∀ c ∈ combos, ∀ t ∈ types, RealKind (c.1, c.2, t) → countOf (capOf caps) (c.1, c.2, t) ≠ 0) :
    ∃ st, generateTeams d caps types combos = some ⟨st.rewards, st.weights, st.types,
        lastIndex (combos.map (fun c => (types.map (fun t => countOf (capOf caps) (c.1, c.2, t))).sum))⟩ ∧
      (∀ c ∈ combos, ∀ t ∈ types, IsCount (capOf caps) (c.1, c.2, t) (countOf (capOf caps) (c.1, c.2, t))) ∧
      Describes d caps.length fit (teams combos types (countOf (capOf caps))) st := by
  obtain ⟨st, h1, h2, h3⟩ := genPairs (d := d) (K := []) (sums := []) ht hp hf
    (st := ⟨List.replicate caps.length [], List.replicate caps.length [], [], none, none, none⟩)
    ⟨⟨by simp, by simp⟩, rfl, fun _ x hx => by simp [List.getD_eq_getElem?_getD, hx]⟩
  refine ⟨st, ?_, h2, by simpa using h3⟩
  unfold generateTeams
  simp only [h1, Option.bind_eq_bind, Option.bind_some, List.nil_append]

/-- The first pair whose last index is at least `k` is the pair of team `k`. -/
theorem lastIndex_spec {combos : List (ℕ × ℕ)} {types : List ℕ} {count : ℕ × ℕ × ℕ → ℕ} {k : ℕ} {kind : ℕ × ℕ × ℕ}
    (hk : (teams combos types count)[k]? = some kind) :
    ∃ i : ℕ, combos[i]? = some (kind.1, kind.2.1) ∧
      ∃ z, (lastIndex (combos.map (fun c => (types.map (fun t => count (c.1, c.2, t))).sum)))[i]? = some z ∧ (k : ℤ) ≤ z ∧
      ∀ j < i, ∀ y, (lastIndex (combos.map (fun c => (types.map (fun t => count (c.1, c.2, t))).sum)))[j]? = some y → y < k := by
  have key : ∀ (combos : List (ℕ × ℕ)) (k : ℕ), (teams combos types count)[k]? = some kind →
      ∃ i : ℕ, combos[i]? = some (kind.1, kind.2.1) ∧
        k + 1 ≤ ((combos.map (fun c => (types.map (fun t => count (c.1, c.2, t))).sum)).take (i + 1)).sum ∧
        ∀ j < i, ((combos.map (fun c => (types.map (fun t => count (c.1, c.2, t))).sum)).take (j + 1)).sum ≤ k := by
    intro combos
    induction combos with
    | nil => intro k h; simp [teams] at h
    | cons c combos ih =>
      intro k h
      have hlen : (types.flatMap (fun t => List.replicate (count (c.1, c.2, t)) (c.1, c.2, t))).length =
          (types.map (fun t => count (c.1, c.2, t))).sum := by simp [List.length_flatMap]
      have happ : teams (c :: combos) types count =
          types.flatMap (fun t => List.replicate (count (c.1, c.2, t)) (c.1, c.2, t)) ++ teams combos types count := by
        simp [teams]
      rw [happ] at h
      by_cases hk' : k < (types.map (fun t => count (c.1, c.2, t))).sum
      · rw [List.getElem?_append_left (by rw [hlen]; exact hk')] at h
        have hm := List.mem_of_getElem? h
        simp only [List.mem_flatMap, List.mem_replicate] at hm
        obtain ⟨t, _, _, rfl⟩ := hm
        exact ⟨0, by simp, by simpa using Nat.succ_le_of_lt hk', by simp⟩
      · rw [List.getElem?_append_right (by rw [hlen]; omega), hlen] at h
        obtain ⟨i, a1, a2, a3⟩ := ih _ h
        refine ⟨i + 1, by simpa using a1, ?_, ?_⟩
        · simp only [List.map_cons, List.take_succ_cons, List.sum_cons]; omega
        · intro j hj
          rcases j with _ | j
          · simp; omega
          · have := a3 j (by omega)
            simp only [List.map_cons, List.take_succ_cons, List.sum_cons]; omega
  obtain ⟨i, a1, a2, a3⟩ := key combos k hk
  have hi : i < combos.length := (List.getElem?_eq_some_iff.mp a1).1
  refine ⟨i, a1, _, by unfold lastIndex; rw [List.getElem?_map, List.getElem?_range (by simpa using hi)]; rfl, by simp only; omega, ?_⟩
  intro j hj y hy
  unfold lastIndex at hy
  rw [List.getElem?_map, List.getElem?_range (by simp; omega)] at hy
  have := a3 j hj
  simp only [Option.map_some, Option.some.injEq] at hy
  omega

theorem prunePair_some {d : TeamData} {a b : ℕ} {x : ℕ × ℕ} (h : prunePair d (a, b) = some x) :
    (x = (a, b) ∨ x = (b, a)) ∧ d.ratio (x.1 - 1) (x.2 - 1) ≤ d.ratio (x.2 - 1) (x.1 - 1) ∧
      d.rdv (x.1 - 1) (x.2 - 1) = d.rdv (x.2 - 1) (x.1 - 1) := by
  unfold prunePair at h
  simp only at h
  split_ifs at h with h1 h2 h3
  · obtain rfl := Option.some.inj h; exact ⟨Or.inr rfl, h1.1.le, h1.2.2⟩
  · obtain rfl := Option.some.inj h; exact ⟨Or.inl rfl, h2.1.le, h2.2.2.symm⟩
  · obtain rfl := Option.some.inj h; exact ⟨Or.inr rfl, h3.1.le, h3.2⟩

theorem mem_units {n x : ℕ} : x ∈ (List.range n).map (· + 1) ↔ 1 ≤ x ∧ x ≤ n := by
  simp only [List.mem_map, List.mem_range]
  constructor
  · rintro ⟨a, ha, rfl⟩; omega
  · intro h; exact ⟨x - 1, by omega, by omega⟩

theorem units_nodup (n : ℕ) : ((List.range n).map (· + 1)).Nodup := (List.nodup_range).map (fun _ _ h => by simpa using h)

theorem mem_combs {n : ℕ} {x : ℕ × ℕ} : x ∈ ((List.range n).map (· + 1)).flatMap (fun a =>
    (((List.range n).map (· + 1)).filter (fun b => a < b)).map (fun b => (a, b))) ↔ 1 ≤ x.1 ∧ x.1 < x.2 ∧ x.2 ≤ n := by
  obtain ⟨u, v⟩ := x
  simp only [List.mem_flatMap, List.mem_map (b := (u, v)), List.mem_filter, mem_units, Prod.mk.injEq, decide_eq_true_eq]
  constructor
  · rintro ⟨a, ha, b, ⟨hb, hab⟩, rfl, rfl⟩; omega
  · intro h; exact ⟨u, by omega, v, ⟨by omega, h.2.1⟩, rfl, rfl⟩

theorem mem_perms {n : ℕ} {x : ℕ × ℕ} : x ∈ ((List.range n).map (· + 1)).flatMap (fun a =>
    ((List.range n).map (· + 1)).map (fun b => (a, b))) ↔ (1 ≤ x.1 ∧ x.1 ≤ n) ∧ 1 ≤ x.2 ∧ x.2 ≤ n := by
  obtain ⟨u, v⟩ := x
  simp only [List.mem_flatMap, List.mem_map (b := (u, v)), mem_units, Prod.mk.injEq]
  constructor
  · rintro ⟨a, ha, b, hb, rfl, rfl⟩; exact ⟨ha, hb⟩
  · intro h; exact ⟨u, h.1, v, h.2, rfl, rfl⟩

theorem perms_nodup (n : ℕ) : (((List.range n).map (· + 1)).flatMap (fun a =>
    ((List.range n).map (· + 1)).map (fun b => (a, b)))).Nodup := by
  rw [List.nodup_flatMap]
  refine ⟨fun a _ => (units_nodup n).map (fun _ _ h => by simpa using h), ?_⟩
  refine (units_nodup n).imp ?_
  intro a b hab
  simp only [Function.onFun, List.disjoint_left, List.mem_map, not_exists, not_and]
  rintro _ ⟨x, _, rfl⟩ y _ h
  exact hab (congrArg Prod.fst h).symm

theorem pruneTeams_mem {d : TeamData} {n : ℕ} (hn : n ≤ d.size) :
    ∃ l, pruneTeams d n = some l ∧ l.Nodup ∧ ∀ x, x ∈ l ↔ ((1 ≤ x.1 ∧ x.1 ≤ n) ∧ 1 ≤ x.2 ∧ x.2 ≤ n) ∧
      ¬ ∃ a b, 1 ≤ a ∧ a < b ∧ b ≤ n ∧ prunePair d (a, b) = some x := by
  unfold pruneTeams
  simp only
  rw [if_pos (Or.inr hn)]
  refine ⟨_, rfl, (perms_nodup n).filter _, fun x => ?_⟩
  rw [List.mem_filter, mem_perms]
  simp only [List.contains_eq_mem, Bool.not_eq_true', decide_eq_false_iff_not, List.mem_filterMap, mem_combs, Prod.exists, and_assoc]

theorem prunePair_isSome {d : TeamData} {a b : ℕ} (hr : d.rdv (b - 1) (a - 1) = d.rdv (a - 1) (b - 1))
    (h : d.ratio (b - 1) (a - 1) = d.ratio (a - 1) (b - 1) ∨ d.dist (b - 1) (a - 1) = d.dist (a - 1) (b - 1)) :
    ∃ x, prunePair d (a, b) = some x := by
  unfold prunePair
  simp only
  split_ifs with h1 h2 h3
  · exact ⟨_, rfl⟩
  · exact ⟨_, rfl⟩
  · exact ⟨_, rfl⟩
  · exfalso
    rcases h with h | h
    · exact h3 ⟨h, hr⟩
    · rcases lt_trichotomy (d.ratio (b - 1) (a - 1)) (d.ratio (a - 1) (b - 1)) with g | g | g
      · exact h1 ⟨g, h, hr⟩
      · exact h3 ⟨g, hr⟩
      · exact h2 ⟨g, h, hr⟩

end Verif.Proofs
