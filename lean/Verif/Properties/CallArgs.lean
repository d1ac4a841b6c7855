import Verif.Proofs.CallArgs

/-! # C47: the arguments of the native entry points -/

namespace Verif.Properties
open Verif Spec Model

/-- C47, the general rule.  Writing two neighbouring arguments in the wrong order does no harm if exactly one is a floating
point number, provided integers and floating point numbers have registers of their own and one of the two still gets a
register.  This holds for every other argument list before and after. -/
theorem C47_swap {ng nf : ℕ} {l1 l2 : List (String × Kind)} {a b : String × Kind} (ha : a.2.isFloat = true) (hb : b.2.isFloat = false)
    (h : l1.countP (fun p => p.2.isFloat) < nf ∨ l1.countP (fun p => !p.2.isFloat) < ng) :
    ReceivesAll (fun l => place ng nf l 0 0 0) ((l1 ++ a :: b :: l2).map Prod.fst) ((l1 ++ a :: b :: l2).map Prod.snd)
      (l1 ++ b :: a :: l2) := by
  refine Proofs.receives_of_mem (Proofs.place_nodup _ _ _ _ _ _) (by rw [Proofs.place_length, List.length_map]) ?_
  have hz : ∀ l : List (String × Kind), (l.map Prod.fst).zip (l.map Prod.snd) = l := by
    intro l; induction l with
    | nil => rfl
    | cons x l ih => simp only [List.map_cons, List.zip_cons_cons, ih]
  rw [hz]
  simp only [List.map_append, List.map_cons]
  obtain ⟨A, x, y, B, h1, h2, h3⟩ := Proofs.place_swap ng nf ha hb (l2.map Prod.snd) (l1.map Prod.snd) 0 0 0
    (by simpa [List.countP_map, Function.comp_def] using h)
  rw [h2, h3]
  have hl : l1.length = A.length := by rw [h1, List.length_map]
  rw [List.zip_append hl, List.zip_append hl]
  simp only [List.zip_cons_cons]
  intro z hzm
  simp only [List.mem_append, List.mem_cons] at hzm ⊢
  tauto

/-- C47, `WrapperTsp`: the call passes the damping factor before the damping flag, the native function has them the other way
round.  With separate registers for floating point numbers (System V x86-64, AAPCS64) every parameter still receives the
argument with its name and kind. -/
theorem C47_tsp (ng nf : ℕ) (h : 1 ≤ nf ∨ 6 ≤ ng) :
    ReceivesAll (fun l => place ng nf l 0 0 0) tspArgs tspArgtypes tspParams := by
  have := C47_swap (ng := ng) (nf := nf) (l1 := tspParams.take 5) (l2 := tspParams.drop 7) (a := ("alpha", .double))
    (b := ("filtering_flag", .bool)) rfl rfl
    (by
      rcases h with h | h
      · left; show 0 < nf; omega
      · right; show 5 < ng; omega)
  exact this

/-- C47, with registers numbered by position the two are exchanged: the parameter for the damping factor receives the flag
and the other way round. -/
theorem C47_tsp_by_position {V : Type} (val : String → V) :
    ((received (fun l => placeByPosition 4 l 0) tspArgs tspArgtypes tspParams val).drop 5).take 2 =
      [("filtering_flag", .bool, some (.double, val "alpha")), ("alpha", .double, some (.bool, val "filtering_flag"))] := rfl

/-- C47, `WrapperKcMwm`: all conventions, also by position. -/
theorem C47_kc (ng nf : ℕ) : ReceivesAll (fun l => place ng nf l 0 0 0) kcArgs kcArgtypes kcParams ∧
    ReceivesAll (fun l => placeByPosition 4 l 0) kcArgs kcArgtypes kcParams :=
  ⟨Proofs.receives_of_mem (Proofs.place_nodup _ _ _ _ _ _) (by rw [Proofs.place_length, List.length_map]) fun z hz => hz,
    Proofs.receives_of_mem (by decide) rfl fun z hz => hz⟩

/-- C47, `WrapperKsat`: all conventions, also by position. -/
theorem C47_ksat (ng nf : ℕ) : ReceivesAll (fun l => place ng nf l 0 0 0) ksatArgs ksatArgtypes ksatParams ∧
    ReceivesAll (fun l => placeByPosition 4 l 0) ksatArgs ksatArgtypes ksatParams :=
  ⟨Proofs.receives_of_mem (Proofs.place_nodup _ _ _ _ _ _) (by rw [Proofs.place_length, List.length_map]) fun z hz => hz,
    Proofs.receives_of_mem (by decide) rfl fun z hz => hz⟩

/-- System V x86-64: the places of the first parameters of `WrapperTsp`. -/
example : (place 6 8 (tspParams.map Prod.snd) 0 0 0).take 9 =
    [.general 0, .general 1, .general 2, .general 3, .general 4, .general 5, .float 0, .stack 0, .stack 1] := rfl
/-- Without registers the two would be exchanged on the stack. -/
example : ((received (fun l => place 0 0 l 0 0 0) tspArgs tspArgtypes tspParams id).drop 5).take 1 =
    [("filtering_flag", .bool, some (.double, "alpha"))] := rfl

end Verif.Properties
