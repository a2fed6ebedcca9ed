import Verif.Lemmas.BSeriesCheck
import Mathlib.Tactic.IntervalCases
import Mathlib.Tactic.NormNum

/-! # The order conditions of the library's tableaux -/

set_option linter.unusedSectionVars false

namespace Verif.BSeries
open Finset

/-- one colour -/
theorem leaf_one (n : ℕ) (c : Unit) : ∃ v ∈ [List.replicate n (1 : ℤ)], v.length = n ∧ ∀ i, i < n → v.getD i 0 = if c = () then 1 else 0 :=
  ⟨_, List.mem_singleton.2 rfl, by simp, fun i hi => by simp [List.getD_eq_getElem, hi]⟩

/-- the integer table `rows / D` is the matrix of the tableau -/
structure TableOf (T : Tableau ℝ) (n : ℕ) (rows : List (List ℤ)) (D : ℤ) : Prop where
  size : T.size = n
  len : rows.length = n
  row : ∀ i, i < n → (rows.getD i []).length = i
  entry : ∀ i, i < n → ∀ j, j < i → ((rows.getD i []).getD j 0 : ℝ) = D * T.aij i j
  pos : D ≠ 0

theorem TableOf.conditions {T : Tableau ℝ} {n : ℕ} {rows : List (List ℤ)} {D : ℤ} (h : TableOf T n rows D) {b : List ℤ} {br : ℕ → ℝ} {Db : ℤ}
    (hblen : b.length = n) (hb : ∀ i, i < n → (b.getD i 0 : ℝ) = Db * br i) (hDb : Db ≠ 0) {rhs : ℕ → ℤ} {p : ℕ}
    (hc : checkConditions rows [List.replicate n 1] b D Db rhs p = true) :
    ∀ τ : PTree Unit, τ.size ≤ p →
      ∑ i ∈ range T.size, br i * stageWeight T.aij (fun _ => ()) τ i = rhs τ.size * (exactWeight τ / (τ.size : ℝ)) := by
  rw [h.size]
  exact conditions_of_check h.len h.row h.entry (leaf_one n) hblen hb h.pos hDb hc

/-! ## `runge_kutta4` -/

def rk4Rows : List (List ℤ) := [[], [1], [0, 1], [0, 0, 2]]

theorem rk4_table : TableOf rk4Tableau 4 rk4Rows 2 where
  size := rfl
  len := rfl
  row i hi := by interval_cases i <;> rfl
  entry i hi j hj := by
    interval_cases i <;> interval_cases j <;> simp [rk4Rows, rk4Tableau, Tableau.aij, lit, frac]
  pos := by norm_num

theorem rk4_nodes : ∀ i, i < (rk4Tableau : Tableau ℝ).size → (rk4Tableau : Tableau ℝ).ci i = ∑ j ∈ range i, (rk4Tableau : Tableau ℝ).aij i j := by
  intro i hi
  simp only [Tableau.size, rk4Tableau, List.length_cons, List.length_nil] at hi
  interval_cases i <;> simp [rk4Tableau, Tableau.aij, Tableau.ci, Finset.sum_range_succ, lit, frac]

theorem rk4_conditions : OrderConditions (rk4Tableau : Tableau ℝ).aij (rk4Tableau : Tableau ℝ).bi (rk4Tableau : Tableau ℝ).size 4 := by
  have h := rk4_table.conditions (b := [1, 2, 2, 1]) (br := (rk4Tableau : Tableau ℝ).bi) (Db := 6) rfl
    (fun i hi => by interval_cases i <;> (simp [rk4Tableau, Tableau.bi, lit, frac]; try norm_num)) (by norm_num) (rhs := fun _ => 1) (p := 4)
    (by decide +kernel)
  intro τ hτ
  simpa using h τ hτ

/-! ## `runge_kutta_cash_karp54` -/

def cashKarpRows : List (List ℤ) :=
  [[], [110592], [41472, 124416], [165888, -497664, 663552], [-112640, 1382400, -1433600, 716800], [16310, 189000, 23000, 221375, 34155]]

theorem cashKarp_table : TableOf cashKarpTableau 6 cashKarpRows 552960 where
  size := rfl
  len := rfl
  row i hi := by interval_cases i <;> rfl
  entry i hi j hj := by
    interval_cases i <;> interval_cases j <;> (simp [cashKarpRows, cashKarpTableau, Tableau.aij, lit, frac]; try norm_num)
  pos := by norm_num

theorem cashKarp_nodes : ∀ i, i < (cashKarpTableau : Tableau ℝ).size →
    (cashKarpTableau : Tableau ℝ).ci i = ∑ j ∈ range i, (cashKarpTableau : Tableau ℝ).aij i j := by
  intro i hi
  simp only [Tableau.size, cashKarpTableau, List.length_cons, List.length_nil] at hi
  interval_cases i <;> (simp [cashKarpTableau, Tableau.aij, Tableau.ci, Finset.sum_range_succ, lit, frac]; try norm_num)

theorem cashKarp_conditions :
    OrderConditions (cashKarpTableau : Tableau ℝ).aij (cashKarpTableau : Tableau ℝ).bi (cashKarpTableau : Tableau ℝ).size 5 := by
  have h := cashKarp_table.conditions (b := [9361, 0, 38500, 20125, 0, 27648]) (br := (cashKarpTableau : Tableau ℝ).bi) (Db := 95634) rfl
    (fun i hi => by interval_cases i <;> (simp [cashKarpTableau, Tableau.bi, lit, frac]; try norm_num)) (by norm_num) (rhs := fun _ => 1) (p := 5)
    (by decide +kernel)
  intro τ hτ
  simpa using h τ hτ

theorem cashKarp_error_conditions :
    VanishingConditions (cashKarpTableau : Tableau ℝ).aij (fun i => (cashKarpDb : List ℝ).getD i 0) (cashKarpTableau : Tableau ℝ).size 4 := by
  have h := cashKarp_table.conditions (b := [-140162, 0, 609400, -1114925, -630729, 1276416]) (br := fun i => (cashKarpDb : List ℝ).getD i 0)
    (Db := 32643072) rfl
    (fun i hi => by interval_cases i <;> (simp [cashKarpDb, lit, frac]; try norm_num)) (by norm_num) (rhs := fun _ => 0) (p := 4)
    (by decide +kernel)
  intro τ hτ
  simpa using h τ hτ

/-! ## `runge_kutta_fehlberg78` -/

def fehlbergRows : List (List ℤ) :=
  [[], [16531200], [6199200, 18597600], [9298800, 0, 27896400], [92988000, 0, -348705000, 348705000],
  [11158560, 0, 0, 55792800, 44634240], [-51660000, 0, 0, 258300000, -537264000, 516600000],
  [23061024, 0, 0, 0, 60504192, -49593600, 3223584],
  [446342400, 0, 0, -1971345600, 3491389440, -2653257600, 166138560, 669513600],
  [-188042400, 0, 0, 47527200, -1613445120, 1285300800, -70670880, 632318400, -18597600],
  [129711456, 0, 0, -464032800, 978905088, -819201600, 116103456, 122472000, 61236000, 97977600],
  [3265920, 0, 0, 0, 0, -32659200, -3265920, -16329600, 16329600, 32659200, 0],
  [-96725664, 0, 0, -464032800, 978905088, -786542400, 119369376, 138801600, 44906400, 65318400, 0, 223171200]]

theorem fehlberg_table : TableOf fehlbergTableau 13 fehlbergRows 223171200 where
  size := rfl
  len := rfl
  row i hi := by interval_cases i <;> rfl
  entry i hi j hj := by
    interval_cases i <;> interval_cases j <;> (simp [fehlbergRows, fehlbergTableau, Tableau.aij, lit, frac]; try norm_num)
  pos := by norm_num

theorem fehlberg_nodes : ∀ i, i < (fehlbergTableau : Tableau ℝ).size →
    (fehlbergTableau : Tableau ℝ).ci i = ∑ j ∈ range i, (fehlbergTableau : Tableau ℝ).aij i j := by
  intro i hi
  simp only [Tableau.size, fehlbergTableau, List.length_cons, List.length_nil] at hi
  interval_cases i <;> (simp [fehlbergTableau, Tableau.aij, Tableau.ci, Finset.sum_range_succ, lit, frac]; try norm_num)

theorem fehlberg_conditions :
    OrderConditions (fehlbergTableau : Tableau ℝ).aij (fehlbergTableau : Tableau ℝ).bi (fehlbergTableau : Tableau ℝ).size 8 := by
  have h := fehlberg_table.conditions (b := [0, 0, 0, 0, 0, 272, 216, 216, 27, 27, 0, 41, 41]) (br := (fehlbergTableau : Tableau ℝ).bi)
    (Db := 840) rfl
    (fun i hi => by interval_cases i <;> (simp [fehlbergTableau, Tableau.bi, lit, frac]; try norm_num)) (by norm_num) (rhs := fun _ => 1) (p := 8)
    (by decide +kernel)
  intro τ hτ
  simpa using h τ hτ

theorem fehlberg_error_conditions :
    VanishingConditions (fehlbergTableau : Tableau ℝ).aij (fun i => (fehlbergDb : List ℝ).getD i 0) (fehlbergTableau : Tableau ℝ).size 7 := by
  have h := fehlberg_table.conditions (b := [-41, 0, 0, 0, 0, 0, 0, 0, 0, 0, -41, 41, 41]) (br := fun i => (fehlbergDb : List ℝ).getD i 0)
    (Db := 840) rfl
    (fun i hi => by interval_cases i <;> (simp [fehlbergDb, lit, frac]; try norm_num)) (by norm_num) (rhs := fun _ => 0) (p := 7)
    (by decide +kernel)
  intro τ hτ
  simpa using h τ hτ

/-! ## `runge_kutta_dopri5` -/

/-- the Dormand-Prince method with its seventh stage, the derivative at the end of the step -/
def dopri5Tableau {K : Type} [Div K] [IntCast K] : Tableau K where
  a := [[frac 1 5], [frac 3 40, frac 9 40], [frac 44 45, frac (-56) 15, frac 32 9],
    [frac 19372 6561, frac (-25360) 2187, frac 64448 6561, frac (-212) 729],
    [frac 9017 3168, frac (-355) 33, frac 46732 5247, frac 49 176, frac (-5103) 18656],
    [frac 35 384, lit 0, frac 500 1113, frac 125 192, frac (-2187) 6784, frac 11 84]]
  b := [frac 35 384, lit 0, frac 500 1113, frac 125 192, frac (-2187) 6784, frac 11 84, lit 0]
  c := [lit 0, frac 1 5, frac 3 10, frac 4 5, frac 8 9, lit 1, lit 1]

/-- the weights of the error estimate -/
def dopri5Db {K : Type} [Div K] [IntCast K] [Sub K] : List K :=
  [frac 35 384 - frac 5179 57600, lit 0, frac 500 1113 - frac 7571 16695, frac 125 192 - frac 393 640,
   frac (-2187) 6784 - frac (-92097) 339200, frac 11 84 - frac 187 2100, frac (-1) 40]

def dopri5Rows : List (List ℤ) :=
  [[], [3427256448], [1285221168, 3855663504], [16755475968, -63975453696, 60929003520],
    [50596564480, -198708787200, 168327864320, -4983390720], [48774576060, -184344854400, 152622973440, 4770896760, -4687309620],
    [1561900725, 0, 7698240000, 11156433750, -5524329195, 2244036960]]

theorem dopri5_table : TableOf dopri5Tableau 7 dopri5Rows 17136282240 where
  size := rfl
  len := rfl
  row i hi := by interval_cases i <;> rfl
  entry i hi j hj := by
    interval_cases i <;> interval_cases j <;> (simp [dopri5Rows, dopri5Tableau, Tableau.aij, lit, frac]; try norm_num)
  pos := by norm_num

theorem dopri5_nodes : ∀ i, i < (dopri5Tableau : Tableau ℝ).size →
    (dopri5Tableau : Tableau ℝ).ci i = ∑ j ∈ range i, (dopri5Tableau : Tableau ℝ).aij i j := by
  intro i hi
  simp only [Tableau.size, dopri5Tableau, List.length_cons, List.length_nil] at hi
  interval_cases i <;> (simp [dopri5Tableau, Tableau.aij, Tableau.ci, Finset.sum_range_succ, lit, frac]; try norm_num)

theorem dopri5_conditions :
    OrderConditions (dopri5Tableau : Tableau ℝ).aij (dopri5Tableau : Tableau ℝ).bi (dopri5Tableau : Tableau ℝ).size 5 := by
  have h := dopri5_table.conditions (b := [12985, 0, 64000, 92750, -45927, 18656, 0]) (br := (dopri5Tableau : Tableau ℝ).bi) (Db := 142464) rfl
    (fun i hi => by interval_cases i <;> (simp [dopri5Tableau, Tableau.bi, lit, frac]; try norm_num)) (by norm_num) (rhs := fun _ => 1) (p := 5)
    (by decide +kernel)
  intro τ hτ
  simpa using h τ hτ

theorem dopri5_error_conditions :
    VanishingConditions (dopri5Tableau : Tableau ℝ).aij (fun i => (dopri5Db : List ℝ).getD i 0) (dopri5Tableau : Tableau ℝ).size 4 := by
  have h := dopri5_table.conditions (b := [26341, 0, -90880, 790230, -1086939, 895488, -534240]) (br := fun i => (dopri5Db : List ℝ).getD i 0)
    (Db := 21369600) rfl
    (fun i hi => by interval_cases i <;> (simp [dopri5Db, lit, frac]; try norm_num)) (by norm_num) (rhs := fun _ => 0) (p := 4)
    (by decide +kernel)
  intro τ hτ
  simpa using h τ hτ

end Verif.BSeries
