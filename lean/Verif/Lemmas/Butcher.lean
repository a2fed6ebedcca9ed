import Verif.Lemmas.Steppers
import Verif.Spec.ButcherTableau
import Mathlib.Tactic.Abel
import Mathlib.Data.List.GetD
import Mathlib.Algebra.BigOperators.Module

/-! The recipe of the generic Runge-Kutta stepper in exact arithmetic. -/

namespace Verif
open Finset
variable {K V : Type} [Field K] [AddCommGroup V] [Module K V]

theorem lin_exact (l : List (K × V)) : (lin l : V) = (l.map fun p => p.1 • p.2).sum := rfl

theorem zip_sum (dt : K) : ∀ (a : List K) (ks : List V), a.length ≤ ks.length →
    (((a.map (· * dt)).zip ks).map fun p => p.1 • p.2).sum =
      dt • ∑ j ∈ range a.length, a.getD j 0 • ks.getD j 0
  | [], _, _ => by simp
  | a :: as, [], h => by simp at h
  | a :: as, k :: ks, h => by
    simp only [List.length_cons, Nat.add_le_add_iff_right] at h
    simp only [List.map_cons, List.zip_cons_cons, List.sum_cons, zip_sum dt as ks h, List.length_cons,
      sum_range_succ', List.getD_cons_succ, List.getD_cons_zero, smul_add]
    rw [add_comm, mul_comm, mul_smul]

theorem lin_row (x : V) (dt : K) (a : List K) (ks : List V) (h : a.length ≤ ks.length) :
    (lin ((lit 1, x) :: (a.map (· * dt)).zip ks) : V) =
      x + dt • ∑ j ∈ range a.length, a.getD j 0 • ks.getD j 0 := by
  rw [lin_exact, List.map_cons, List.sum_cons, zip_sum dt a ks h]
  simp [lit]

theorem stagePoint_congr (T : Tableau K) (x : V) (dt : K) (k k' : ℕ → V) (i : ℕ)
    (h : ∀ j, j < i → k j = k' j) : T.stagePoint x dt k i = T.stagePoint x dt k' i := by
  unfold Tableau.stagePoint
  congr 2
  exact sum_congr rfl fun j hj => by rw [h j (mem_range.1 hj)]

theorem rkStages_log (T : Tableau K) (hT : T.WellFormed) (f : V → K → V) (x : V) (t dt : K) :
    ∀ (n i : ℕ) (ks : List V) (w : List (V × K)), ks.length = i + 1 → T.a.length = i + n →
    (∀ j, j < i + 1 → ks.getD j 0 = f (T.stagePoint x dt (fun m => ks.getD m 0) j) (T.stageTime t dt j)) →
    ∃ ks' : List V, rkStages (loggingSys f) x t dt ((T.c.tail.zip T.a).drop i) ks w =
        .ok ks' (w ++ ((List.range n).map fun m => (T.stagePoint x dt (fun m => ks'.getD m 0) (i + 1 + m),
          T.stageTime t dt (i + 1 + m)))) ∧
      ks'.length = T.size ∧ T.IsStages f x t dt (fun m => ks'.getD m 0) ∧
      (∀ j, j < i + 1 → ks'.getD j 0 = ks.getD j 0) := by
  obtain ⟨hc, hb, hrow⟩ := hT
  intro n
  induction n with
  | zero =>
    intro i ks w hl hn hk
    have hd : (T.c.tail.zip T.a).drop i = [] := by
      apply List.drop_eq_nil_of_le
      simp; omega
    refine ⟨ks, by simp [hd, rkStages, M.pure_apply], by rw [Tableau.size]; omega, fun j hj => ?_, fun _ _ => rfl⟩
    exact hk j (by rw [Tableau.size] at hj; omega)
  | succ n ih =>
    intro i ks w hl hn hk
    have hi : i < T.a.length := by omega
    have hd : (T.c.tail.zip T.a).drop i = (T.c.getD (i + 1) 0, T.a.getD i []) :: (T.c.tail.zip T.a).drop (i + 1) := by
      have hlen : i < (T.c.tail.zip T.a).length := by simp; omega
      rw [List.drop_eq_getElem_cons hlen]
      congr 1
      rw [List.getElem_zip]
      congr 1
      · rw [List.getElem_tail, List.getD_eq_getElem _ _ (by omega)]
      · rw [List.getD_eq_getElem _ _ hi]
    have hpt : (lin ((lit 1, x) :: ((T.a.getD i []).map (· * dt)).zip ks) : V) =
        T.stagePoint x dt (fun m => ks.getD m 0) (i + 1) := by
      rw [lin_row x dt _ ks (by rw [hrow i hi]; omega), hrow i hi]
      rfl
    set k := f (T.stagePoint x dt (fun m => ks.getD m 0) (i + 1)) (T.stageTime t dt (i + 1)) with hkdef
    have old : ∀ j, j < i + 1 → (ks ++ [k]).getD j 0 = ks.getD j 0 := by
      intro j hj
      rw [List.getD_append _ _ _ _ (by omega)]
    have new : (ks ++ [k]).getD (i + 1) 0 = k := by
      rw [List.getD_append_right _ _ _ _ (by omega), hl]; simp
    obtain ⟨ks', e1, e2, e3, e4⟩ := ih (i + 1) (ks ++ [k])
      (w ++ [(T.stagePoint x dt (fun m => ks.getD m 0) (i + 1), T.stageTime t dt (i + 1))])
      (by simp; omega) (by omega) (by
        intro j hj
        rcases Nat.lt_or_ge j (i + 1) with hlt | hge
        · rw [old j hlt, hk j hlt]
          congr 1
          exact stagePoint_congr T x dt _ _ j fun m hm => (old m (by omega)).symm
        · obtain rfl : j = i + 1 := by omega
          rw [new, hkdef]
          congr 1
          exact stagePoint_congr T x dt _ _ (i + 1) fun m hm => (old m hm).symm)
    refine ⟨ks', ?_, e2, e3, fun j hj => by rw [e4 j (by omega), old j hj]⟩
    have hp' : T.stagePoint x dt (fun m => ks'.getD m 0) (i + 1) = T.stagePoint x dt (fun m => ks.getD m 0) (i + 1) :=
      stagePoint_congr T x dt _ _ (i + 1) fun m hm => by rw [e4 m (by omega), old m hm]
    rw [hd]
    simp only [rkStages, hpt]
    rw [M.bind_apply]
    have : t + T.c.getD (i + 1) 0 * dt = T.stageTime t dt (i + 1) := rfl
    simp only [loggingSys, this, ← hkdef]
    rw [e1]
    congr 1
    rw [List.range_succ_eq_map, List.map_cons, List.append_assoc, List.singleton_append]
    simp only [Nat.add_zero, hp', List.map_map]
    congr 2
    refine List.map_congr_left fun m _ => ?_
    simp only [Function.comp_apply]
    rw [show i + 1 + 1 + m = i + 1 + m.succ by omega]

/-- The whole recipe. -/
theorem rkAllStages_log (T : Tableau K) (hT : T.WellFormed) (f : V → K → V) (x : V) (t dt : K) (w : List (V × K)) :
    ∃ ks : List V, (loggingSys f x t >>= fun k1 => rkAllStages T (loggingSys f) x k1 t dt) w =
        .ok ks (w ++ ((List.range T.size).map fun m => (T.stagePoint x dt (fun m => ks.getD m 0) m,
          T.stageTime t dt m))) ∧
      ks.length = T.size ∧ T.IsStages f x t dt (fun m => ks.getD m 0) := by
  have e0 : ∀ k : ℕ → V, T.stagePoint x dt k 0 = x := by intro k; simp [Tableau.stagePoint]
  have t0 : T.stageTime t dt 0 = t := by simp [Tableau.stageTime, Tableau.ci]
  obtain ⟨ks, e1, e2, e3, e4⟩ := rkStages_log T hT f x t dt T.a.length 0 [f x t] (w ++ [(x, t)]) (by simp) (by omega) (by
    intro j hj
    obtain rfl : j = 0 := by omega
    simp [e0, t0])
  refine ⟨ks, ?_, e2, e3⟩
  rw [M.bind_apply]
  simp only [loggingSys, rkAllStages]
  rw [List.drop_zero] at e1
  rw [e1, Tableau.size, List.range_succ_eq_map, List.map_cons, e0, t0, List.append_assoc, List.singleton_append]
  congr 2
  rw [List.map_map]
  congr 1
  refine List.map_congr_left fun m _ => ?_
  simp only [Function.comp_apply]
  rw [show 0 + 1 + m = m.succ by omega]

theorem rkResult_exact (T : Tableau K) (hT : T.WellFormed) (x : V) (dt : K) (ks : List V) (h : ks.length = T.size) :
    rkResult T.b x dt ks = T.result x dt (fun m => ks.getD m 0) := by
  rw [rkResult, lin_row x dt T.b ks (by rw [h, hT.2.1, Tableau.size]), hT.2.1]
  rfl

theorem rkError_exact (T : Tableau K) (b2 : List K) (hb : b2.length = T.size) (dt : K) (ks : List V)
    (h : ks.length = T.size) :
    (lin ((b2.map (· * dt)).zip ks) : V) = T.errorEstimate b2 dt (fun m => ks.getD m 0) := by
  rw [lin_exact, zip_sum dt b2 ks (by rw [h, hb]), hb]
  rfl

end Verif
