import Verif.Proofs.TspScale
import Verif.Proofs.TspSymmetric
import Verif.Proofs.Transport

/-! Renaming nodes and listing edges in another order, in the relaxed round. -/

namespace Verif.Proofs
open Verif Num Spec Model

variable {n : ℕ} {edges edges' : List (ℕ × ℕ)} {w w' : ℕ → ℚ} {c c' C C' x0 x0' s0 s0' : ℕ → ℕ → ℚ} {flag : Bool} {alpha s : ℚ}
  {x r y q x' r' y' q' : ℕ → ℕ → ℕ → ℚ} {π ρ : ℕ → ℕ}

/-- `edges'` is `edges` with node `v` renamed to `π v` and edge `e` moved to place `ρ e`. -/
structure SameGraph (n : ℕ) (π ρ : ℕ → ℕ) (edges edges' : List (ℕ × ℕ)) : Prop where
  node : ∀ v < n, π v < n
  node_inj : ∀ u < n, ∀ v < n, π u = π v → u = v
  length : edges'.length = edges.length
  place : ∀ e < edges.length, ρ e < edges.length
  place_inj : ∀ e < edges.length, ∀ d < edges.length, ρ e = ρ d → e = d
  src : ∀ e < edges.length, src edges' (ρ e) = π (src edges e)
  dst : ∀ e < edges.length, dst edges' (ρ e) = π (dst edges e)

theorem place_surj (h : SameGraph n π ρ edges edges') : ∀ d < edges.length, ∃ e < edges.length, ρ e = d := by
  have hs := Finset.surj_on_of_inj_on_of_card_le (s := Finset.range edges.length) (t := Finset.range edges.length) (fun e _ => ρ e)
    (fun e he => Finset.mem_range.mpr (h.place e (Finset.mem_range.mp he)))
    (fun a b ha hb hab => h.place_inj a (Finset.mem_range.mp ha) b (Finset.mem_range.mp hb) hab) le_rfl
  intro d hd
  obtain ⟨e, he, hed⟩ := hs d (Finset.mem_range.mpr hd)
  exact ⟨e, Finset.mem_range.mp he, hed.symm⟩

theorem out_same (hok : EdgesOk n edges) (h : SameGraph n π ρ edges edges') {v : ℕ} (hv : v < n) :
    outEdges edges' (π v) = (outEdges edges v).image ρ := by
  ext d
  rw [mem_out, Finset.mem_image]
  constructor
  · rintro ⟨h1, h2⟩
    rw [h.length] at h1
    obtain ⟨e, he, rfl⟩ := place_surj h d h1
    rw [h.src e he] at h2
    exact ⟨e, mem_out.mpr ⟨he, h.node_inj _ (src_lt hok he) _ hv h2⟩, rfl⟩
  · rintro ⟨e, he, rfl⟩
    obtain ⟨h1, h2⟩ := mem_out.mp he
    exact ⟨by rw [h.length]; exact h.place e h1, by rw [h.src e h1, h2]⟩

theorem in_same (hok : EdgesOk n edges) (h : SameGraph n π ρ edges edges') {v : ℕ} (hv : v < n) :
    inEdges edges' (π v) = (inEdges edges v).image ρ := by
  ext d
  rw [mem_in, Finset.mem_image]
  constructor
  · rintro ⟨h1, h2⟩
    rw [h.length] at h1
    obtain ⟨e, he, rfl⟩ := place_surj h d h1
    rw [h.dst e he] at h2
    exact ⟨e, mem_in.mpr ⟨he, h.node_inj _ (dst_lt hok he) _ hv h2⟩, rfl⟩
  · rintro ⟨e, he, rfl⟩
    obtain ⟨h1, h2⟩ := mem_in.mp he
    exact ⟨by rw [h.length]; exact h.place e h1, by rw [h.dst e h1, h2]⟩

/-- Messages of "exactly one" constraints on renamed variables. -/
theorem exactlyOne_same (hs : 0 < s) {A : Finset ℕ} (hρ : ∀ u ∈ A, ∀ v ∈ A, ρ u = ρ v → u = v) {f g : ℕ → ℚ} (hfg : ∀ e ∈ A, g (ρ e) = s * f e)
    {e : ℕ} (he : e ∈ A) {a b : ℚ} (ha : IsMessage A ExactlyOne f e (fin a)) (hb : IsMessage (A.image ρ) ExactlyOne g (ρ e) (fin b)) :
    b = s * a := by
  have m1 := marg_of_message ha
  have m2 := marg_of_message hb
  have m3 := marg_transport (neg := fun _ => False) (y := g) hρ hs (fun v hv => by simp [hfg v hv]) (Q := ExactlyOne) (fun S hS => by
    have e1 : flipSet A ρ (fun _ => False) S = S.image ρ := by
      ext d
      rw [Finset.mem_image]
      constructor
      · intro hd
        obtain ⟨u, hu, rfl⟩ := Finset.mem_image.mp hd
        have hA := (Finset.mem_filter.mp hu).1
        exact ⟨u, ((mem_flipSet hρ hA).mp hd).mpr (by simp), rfl⟩
      · rintro ⟨u, hu, rfl⟩
        exact (mem_flipSet hρ (hS hu)).mpr (by simp [hu])
    rw [e1]
    constructor
    · rintro ⟨i, hi⟩
      have : i ∈ S.image ρ := by rw [hi]; simp
      obtain ⟨u, hu, rfl⟩ := Finset.mem_image.mp this
      refine ⟨u, Finset.eq_singleton_iff_unique_mem.mpr ⟨hu, fun d hd => ?_⟩⟩
      have : ρ d ∈ S.image ρ := Finset.mem_image_of_mem _ hd
      rw [hi, Finset.mem_singleton] at this
      exact hρ d (hS hd) u (hS hu) this
    · rintro ⟨i, rfl⟩
      exact ⟨ρ i, by simp⟩) he m1
  have := marg_unique m2 m3
  rw [hfg e he] at this
  simp only [if_false, mul_one] at this
  linarith

/-- Renaming, reordering and scaling carry over to all messages. -/
theorem trace_named (hs : 0 < s) (hok : EdgesOk n edges) (h : SameGraph n π ρ edges edges')
    (hc : ∀ e < edges.length, ∀ v, v = src edges e ∨ v = dst edges e → c' (ρ e) (π v) = s * c e v)
    (hx : ∀ e < edges.length, ∀ v, v = src edges e ∨ v = dst edges e → x0' (ρ e) (π v) = s * x0 e v)
    (ht : IsTspTrace n edges [] w c flag alpha x0 s0 x r y q) (ht' : IsTspTrace n edges' [] w' c' flag alpha x0' s0' x' r' y' q') (j : ℕ) :
    ∀ i ≤ j, ∀ e < edges.length, ∀ v, v = src edges e ∨ v = dst edges e → x' i (ρ e) (π v) = s * x i e v ∧ r' i (ρ e) (π v) = s * r i e v := by
  have hr : ∀ i, (∀ e < edges.length, ∀ v, v = src edges e ∨ v = dst edges e → x' i (ρ e) (π v) = s * x i e v) →
      ∀ e < edges.length, ∀ v, v = src edges e ∨ v = dst edges e → r' i (ρ e) (π v) = s * r i e v := by
    rintro i hx e he v (rfl | rfl)
    · have hv := src_lt hok he
      have hm : e ∈ outEdges edges (src edges e) := mem_out.mpr ⟨he, rfl⟩
      have hb := ht'.out i (π (src edges e)) (h.node _ hv) (ρ e) (by rw [out_same hok h hv]; exact Finset.mem_image_of_mem _ hm)
      rw [out_same hok h hv] at hb
      exact exactlyOne_same hs (fun a ha b hb => h.place_inj a (mem_out.mp ha).1 b (mem_out.mp hb).1)
        (fun a ha => hx a (mem_out.mp ha).1 _ (Or.inl (mem_out.mp ha).2.symm)) hm (ht.out i _ hv e hm) hb
    · have hv := dst_lt hok he
      have hm : e ∈ inEdges edges (dst edges e) := mem_in.mpr ⟨he, rfl⟩
      have hb := ht'.inn i (π (dst edges e)) (h.node _ hv) (ρ e) (by rw [in_same hok h hv]; exact Finset.mem_image_of_mem _ hm)
      rw [in_same hok h hv] at hb
      exact exactlyOne_same hs (fun a ha b hb => h.place_inj a (mem_in.mp ha).1 b (mem_in.mp hb).1)
        (fun a ha => hx a (mem_in.mp ha).1 _ (Or.inr (mem_in.mp ha).2.symm)) hm (ht.inn i _ hv e hm) hb
  have hE : ∀ e < edges.length, ρ e < edges'.length := fun e he => by rw [h.length]; exact h.place e he
  induction j with
  | zero =>
    intro i hi
    obtain rfl : i = 0 := by omega
    have hx : ∀ e < edges.length, ∀ v, v = src edges e ∨ v = dst edges e → x' 0 (ρ e) (π v) = s * x 0 e v := by
      rintro e he v (rfl | rfl)
      · have := ht'.init_src (ρ e) (hE e he)
        rw [h.src e he] at this
        rw [this, ht.init_src e he, hx e he _ (Or.inl rfl)]
      · have := ht'.init_dst (ρ e) (hE e he)
        rw [h.dst e he] at this
        rw [this, ht.init_dst e he, hx e he _ (Or.inr rfl)]
    exact fun e he v hv => ⟨hx e he v hv, hr 0 hx e he v hv⟩
  | succ j ih =>
    intro i hi
    rcases Nat.lt_or_ge i (j + 1) with hlt | hge
    · exact ih i (by omega)
    obtain rfl : i = j + 1 := by omega
    have hdamp : ∀ e < edges.length, ∀ v, v = src edges e ∨ v = dst edges e →
        damped flag alpha (fun i => r' i (ρ e) (π v)) j = s * damped flag alpha (fun i => r i e v) j := by
      intro e he v hv
      rw [← damped_smul]
      exact damped_congr fun i hi => (ih i (by omega) e he v hv).2
    have hx : ∀ e < edges.length, ∀ v, v = src edges e ∨ v = dst edges e → x' (j + 1) (ρ e) (π v) = s * x (j + 1) e v := by
      rintro e he v (rfl | rfl)
      · have := ht'.var_src j (ρ e) (hE e he)
        rw [h.src e he, h.dst e he, hc e he _ (Or.inl rfl), hdamp e he _ (Or.inr rfl)] at this
        rw [this, ht.var_src j e he]
        simp [cuts, mul_add]
      · have := ht'.var_dst j (ρ e) (hE e he)
        rw [h.src e he, h.dst e he, hc e he _ (Or.inr rfl), hdamp e he _ (Or.inl rfl)] at this
        rw [this, ht.var_dst j e he]
        simp [cuts, mul_add]
    exact fun e he v hv => ⟨hx e he v hv, hr (j + 1) hx e he v hv⟩

theorem output_named (hs : 0 < s) (hok : EdgesOk n edges) (h : SameGraph n π ρ edges edges')
    (hc : ∀ e < edges.length, ∀ v, v = src edges e ∨ v = dst edges e → c' (ρ e) (π v) = s * c e v)
    (hx : ∀ e < edges.length, ∀ v, v = src edges e ∨ v = dst edges e → x0' (ρ e) (π v) = s * x0 e v)
    (ht : IsTspTrace n edges [] w c flag alpha x0 s0 x r y q) (ht' : IsTspTrace n edges' [] w' c' flag alpha x0' s0' x' r' y' q')
    {d0 d0' : ℕ → ℕ → ℚ} (hd : ∀ e < edges.length, ∀ v, v = src edges e ∨ v = dst edges e → d0' (ρ e) (π v) = s * d0 e v)
    (K : ℕ) {e : ℕ} (he : e < edges.length) :
    tspOutput flag alpha edges' [] d0' s0' r' q' K (ρ e) = s * tspOutput flag alpha edges [] d0 s0 r q K e := by
  have hr : ∀ v, v = src edges e ∨ v = dst edges e → (fun i => r' i (ρ e) (π v)) = fun i => s * r i e v := fun v hv =>
    funext fun i => (trace_named hs hok h hc hx ht ht' i i le_rfl e he v hv).2
  unfold tspOutput
  rw [h.src e he, h.dst e he, hr _ (Or.inl rfl), hr _ (Or.inr rfl), hd e he _ (Or.inl rfl), hd e he _ (Or.inr rfl), prev_smul, prev_smul]
  simp [cuts, mul_add]

/-- Complete graphs with the same nodes. -/
theorem exists_same (h : AllEdges n edges) (h' : AllEdges n edges') (hπ : ∀ v < n, π v < n) (hinj : ∀ u < n, ∀ v < n, π u = π v → u = v) :
    ∃ ρ, SameGraph n π ρ edges edges' := by
  have hlt : ∀ e < edges.length, src edges e < n ∧ dst edges e < n ∧ src edges e ≠ dst edges e := fun e he => by
    have := h.2.1 _ (List.getElem_mem he)
    rw [src_dst he] at this; exact this
  have h1 : ∀ e, ∃ d, e < edges.length → d < edges'.length ∧ src edges' d = π (src edges e) ∧ dst edges' d = π (dst edges e) := by
    intro e
    by_cases he : e < edges.length
    · obtain ⟨a, b, c⟩ := hlt e he
      obtain ⟨d, g1, g2, g3⟩ := edge_of_mem (h'.2.2 _ (hπ _ a) _ (hπ _ b) (fun hh => c (hinj _ a _ b hh)))
      exact ⟨d, fun _ => ⟨g1, g2, g3⟩⟩
    · exact ⟨0, fun hh => absurd hh he⟩
  choose ρ hρ using h1
  have hlen : edges'.length = edges.length := by rw [Properties.allEdges_length h, Properties.allEdges_length h']
  refine ⟨ρ, hπ, hinj, hlen, fun e he => by rw [← hlen]; exact (hρ e he).1, fun e he d hd hed => ?_, fun e he => (hρ e he).2.1,
    fun e he => (hρ e he).2.2⟩
  obtain ⟨-, a2, a3⟩ := hρ e he
  obtain ⟨-, b2, b3⟩ := hρ d hd
  rw [hed] at a2 a3
  exact edge_inj h.1 he hd (hinj _ (hlt e he).1 _ (hlt d hd).1 (by rw [← a2, ← b2])) (hinj _ (hlt e he).2.1 _ (hlt d hd).2.1 (by rw [← a3, ← b3]))

end Verif.Proofs
