import Verif.Lemmas.Butcher
import Verif.Spec.Order
import Verif.Spec.DenseSteps

/-! The stages of the Runge-Kutta steppers, for system functions that evaluate a given right-hand side. -/

set_option linter.unusedSectionVars false

namespace Verif
open Finset
variable {K V W : Type} [Field K] [AddCommGroup V] [Module K V]

theorem Evaluates.bind {sys : Sys K V W} {f : V → K → V} (hs : Evaluates sys f) (x : V) (t : K) (w : W) {α : Type} (g : V → M W α) :
    ∃ w', (sys x t >>= g) w = g (f x t) w' := by
  obtain ⟨w', h⟩ := hs x t w
  exact ⟨w', M.bind_ok h _⟩

theorem rkStages_value {sys : Sys K V W} {f : V → K → V} (hs : Evaluates sys f) (T : Tableau K) (hT : T.WellFormed) (x : V) (t dt : K) :
    ∀ (n i : ℕ) (ks : List V) (w : W), ks.length = i + 1 → T.a.length = i + n →
    (∀ j, j < i + 1 → ks.getD j 0 = f (T.stagePoint x dt (fun m => ks.getD m 0) j) (T.stageTime t dt j)) →
    ∃ (ks' : List V) (w' : W), rkStages sys x t dt ((T.c.tail.zip T.a).drop i) ks w = .ok ks' w' ∧
      ks'.length = T.size ∧ T.IsStages f x t dt (fun m => ks'.getD m 0) := by
  obtain ⟨hc, hb, hrow⟩ := hT
  intro n
  induction n with
  | zero =>
    intro i ks w hl hn hk
    have hd : (T.c.tail.zip T.a).drop i = [] := by
      apply List.drop_eq_nil_of_le
      simp; omega
    refine ⟨ks, w, by simp [hd, rkStages, M.pure_apply], by rw [Tableau.size]; omega, fun j hj => ?_⟩
    exact hk j (by rw [Tableau.size] at hj; omega)
  | succ n ih =>
    intro i ks w hl hn hk
    have hi : i < T.a.length := by omega
    have hd : (T.c.tail.zip T.a).drop i = (T.c.getD (i + 1) 0, T.a.getD i []) :: (T.c.tail.zip T.a).drop (i + 1) := by
      have hlen : i < (T.c.tail.zip T.a).length := by simp; omega
      rw [List.drop_eq_getElem_cons hlen]
      congr 1
      rw [List.getElem_zip]
      congr 1
      · rw [List.getElem_tail, List.getD_eq_getElem _ _ (by omega)]
      · rw [List.getD_eq_getElem _ _ hi]
    have hpt : (lin ((lit 1, x) :: ((T.a.getD i []).map (· * dt)).zip ks) : V) =
        T.stagePoint x dt (fun m => ks.getD m 0) (i + 1) := by
      rw [lin_row x dt _ ks (by rw [hrow i hi]; omega), hrow i hi]
      rfl
    obtain ⟨w1, hw1⟩ := hs (T.stagePoint x dt (fun m => ks.getD m 0) (i + 1)) (T.stageTime t dt (i + 1)) w
    set k := f (T.stagePoint x dt (fun m => ks.getD m 0) (i + 1)) (T.stageTime t dt (i + 1)) with hkdef
    have old : ∀ j, j < i + 1 → (ks ++ [k]).getD j 0 = ks.getD j 0 := by
      intro j hj
      rw [List.getD_append _ _ _ _ (by omega)]
    have new : (ks ++ [k]).getD (i + 1) 0 = k := by
      rw [List.getD_append_right _ _ _ _ (by omega), hl]; simp
    obtain ⟨ks', w', e1, e2, e3⟩ := ih (i + 1) (ks ++ [k]) w1
      (by simp; omega) (by omega) (by
        intro j hj
        rcases Nat.lt_or_ge j (i + 1) with hlt | hge
        · rw [old j hlt, hk j hlt]
          congr 1
          exact stagePoint_congr T x dt _ _ j fun m hm => (old m (by omega)).symm
        · obtain rfl : j = i + 1 := by omega
          rw [new, hkdef]
          congr 1
          exact stagePoint_congr T x dt _ _ (i + 1) fun m hm => (old m hm).symm)
    refine ⟨ks', w', ?_, e2, e3⟩
    rw [hd]
    simp only [rkStages, hpt]
    have : t + T.c.getD (i + 1) 0 * dt = T.stageTime t dt (i + 1) := rfl
    rw [this, M.bind_ok hw1]
    exact e1

theorem rkAllStages_value {sys : Sys K V W} {f : V → K → V} (hs : Evaluates sys f) (T : Tableau K) (hT : T.WellFormed) (x : V) (t dt : K)
    (w : W) : ∃ (ks : List V) (w' : W), rkAllStages T sys x (f x t) t dt w = .ok ks w' ∧
      ks.length = T.size ∧ T.IsStages f x t dt (fun m => ks.getD m 0) := by
  have e0 : ∀ k : ℕ → V, T.stagePoint x dt k 0 = x := by intro k; simp [Tableau.stagePoint]
  have t0 : T.stageTime t dt 0 = t := by simp [Tableau.stageTime, Tableau.ci]
  obtain ⟨ks, w', e1, e2, e3⟩ := rkStages_value hs T hT x t dt T.a.length 0 [f x t] w (by simp) (by omega) (by
    intro j hj
    obtain rfl : j = 0 := by omega
    simp [e0, t0])
  rw [List.drop_zero] at e1
  exact ⟨ks, w', e1, e2, e3⟩

theorem IsStages.ext {T : Tableau K} {f : V → K → V} {x : V} {t dt : K} {k k' : ℕ → V} (h : T.IsStages f x t dt k)
    (h' : T.IsStages f x t dt k') : ∀ i, i < T.size → k i = k' i := by
  intro i
  induction i using Nat.strong_induction_on with
  | _ i ih =>
    intro hi
    rw [h i hi, h' i hi]
    congr 1
    exact stagePoint_congr T x dt _ _ i fun j hj => ih j hj (by omega)

/-- the stages, computed by recursion -/
def Tableau.stageFn (T : Tableau K) (f : V → K → V) (x : V) (t dt : K) : ℕ → V
  | i => f (x + dt • ∑ j : Fin i, T.aij i j • T.stageFn f x t dt j) (T.stageTime t dt i)
termination_by i => i
decreasing_by exact j.2

theorem Tableau.stageFn_isStages (T : Tableau K) (f : V → K → V) (x : V) (t dt : K) : T.IsStages f x t dt (T.stageFn f x t dt) := by
  intro i _
  rw [Tableau.stageFn, Tableau.stagePoint, Finset.sum_range]

theorem Tableau.result_congr (T : Tableau K) (x : V) (dt : K) {k k' : ℕ → V} (h : ∀ i, i < T.size → k i = k' i) :
    T.result x dt k = T.result x dt k' := by
  unfold Tableau.result
  rw [Finset.sum_congr rfl fun i hi => by rw [h i (Finset.mem_range.1 hi)]]

theorem Tableau.errorEstimate_congr (T : Tableau K) (b2 : List K) (dt : K) {k k' : ℕ → V} (h : ∀ i, i < T.size → k i = k' i) :
    T.errorEstimate b2 dt k = T.errorEstimate b2 dt k' := by
  unfold Tableau.errorEstimate
  rw [Finset.sum_congr rfl fun i hi => by rw [h i (Finset.mem_range.1 hi)]]

theorem rkStep_value {sys : Sys K V W} {f : V → K → V} (hs : Evaluates sys f) (T : Tableau K) (hT : T.WellFormed) (x : V) (t dt : K)
    (w : W) : ∃ w', rkStep T sys x (f x t) t dt w = .ok (T.result x dt (T.stageFn f x t dt)) w' := by
  obtain ⟨ks, w', e1, e2, e3⟩ := rkAllStages_value hs T hT x t dt w
  refine ⟨w', ?_⟩
  unfold rkStep
  rw [M.bind_ok e1, M.pure_apply, rkResult_exact T hT x dt ks e2,
    T.result_congr x dt (IsStages.ext e3 (T.stageFn_isStages f x t dt))]

theorem rkErrStep_value {sys : Sys K V W} {f : V → K → V} (hs : Evaluates sys f) (T : Tableau K) (hT : T.WellFormed) (b2 : List K)
    (hb : b2.length = T.size) (x : V) (t dt : K) (w : W) :
    ∃ w', rkErrStep T b2 sys x (f x t) t dt w =
      .ok (T.result x dt (T.stageFn f x t dt), T.errorEstimate b2 dt (T.stageFn f x t dt)) w' := by
  obtain ⟨ks, w', e1, e2, e3⟩ := rkAllStages_value hs T hT x t dt w
  refine ⟨w', ?_⟩
  unfold rkErrStep
  rw [M.bind_ok e1, M.pure_apply, rkResult_exact T hT x dt ks e2, rkError_exact T b2 hb dt ks e2,
    T.result_congr x dt (IsStages.ext e3 (T.stageFn_isStages f x t dt)),
    T.errorEstimate_congr b2 dt (IsStages.ext e3 (T.stageFn_isStages f x t dt))]

end Verif
