import Verif.Model.KcTeams

/-!
The tables of /repo/src/impa/initializationModule.py as `TeamData`.  `math.exp(-k)` and the product of two floats (Impa.py:1256-1257) are
parameters.
-/

namespace Verif.Model

/-- initializationModule.py:12 `F_u`. -/
def fuTable : List ℕ := [0, 0, 0, 4, 0, 0, 4, 0, 0, 1, 1]

/-- initializationModule.py:13 `W_u`. -/
def wuTable : List ℕ := [2, 2, 2, 0, 2, 2, 0, 1, 1, 0, 0]

/-- initializationModule.py:18-32 `distance_metric` (`rho` is 1). -/
def distTable : List (List ℕ) :=
  [[0, 0, 0, 0, 1, 1, 1, 2, 2, 2, 2],
   [0, 0, 0, 0, 1, 1, 1, 2, 2, 2, 2],
   [0, 0, 0, 0, 1, 1, 1, 2, 2, 2, 2],
   [0, 0, 0, 0, 1, 1, 1, 2, 2, 2, 2],
   [1, 1, 1, 1, 0, 0, 0, 2, 2, 3, 3],
   [1, 1, 1, 1, 0, 0, 0, 2, 2, 3, 3],
   [1, 1, 1, 1, 0, 0, 0, 2, 2, 3, 3],
   [2, 2, 2, 2, 2, 2, 2, 2, 2, 2, 2],
   [2, 2, 2, 2, 2, 2, 2, 2, 2, 2, 2],
   [2, 2, 2, 2, 3, 3, 2, 2, 2, 2, 2],
   [2, 2, 2, 2, 3, 3, 2, 2, 2, 2, 2]]

/-- initializationModule.py:42-188 `distance_metric_rendezvouz`; 0 is "CV" and 1 is "RR". -/
def rdvTable : List (List ℕ) :=
  [[0, 0, 0, 0, 1, 1, 1, 0, 0, 0, 0],
   [0, 0, 0, 0, 1, 1, 1, 0, 0, 0, 0],
   [0, 0, 0, 0, 1, 1, 1, 0, 0, 0, 0],
   [0, 0, 0, 0, 1, 1, 1, 0, 0, 0, 0],
   [0, 0, 0, 0, 1, 1, 1, 1, 1, 1, 1],
   [0, 0, 0, 0, 1, 1, 1, 1, 1, 1, 1],
   [0, 0, 0, 0, 1, 1, 1, 1, 1, 1, 1],
   [0, 0, 0, 0, 1, 1, 1, 1, 1, 0, 0],
   [0, 0, 0, 0, 1, 1, 1, 1, 1, 0, 0],
   [0, 0, 0, 0, 1, 1, 1, 0, 0, 0, 0],
   [0, 0, 0, 0, 1, 1, 1, 0, 0, 0, 0]]

/-- initializationModule.py:12-188; `K_1` is line 16.  `ex k` is `math.exp(-k)`, `mul` the product of floats. -/
def shippedData (ex : ℕ → ℚ) (mul : ℚ → ℚ → ℚ) : TeamData where
  size := 11
  fu := fun u => fuTable.getD u 0
  wu := fun u => wuTable.getD u 0
  k1 := 10
  dist := fun a b => (distTable.getD a []).getD b 0
  rdv := fun a b => (rdvTable.getD a []).getD b 0
  ratio := fun a b => mul (ex (fuTable.getD a 0)) (ex (wuTable.getD b 0))

end Verif.Model
