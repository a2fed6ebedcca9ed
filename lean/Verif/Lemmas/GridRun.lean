import Verif.Lemmas.RkRegular
import Verif.Props.IntegrateFixed

/-! # Runs of the integrate functions with a fixed step size, for steppers that compute a function -/

namespace Verif
open Finset

variable {V W Q : Type}

/-- In every state of the stepper allowed by `R`, a step from `(x,t)` yields `Φ x t dt` and leaves the stepper allowed for the next step. -/
def StepFn (st : BasicStepper Q (W × Log V ℝ) V ℝ) (R : Q → V → ℝ → Prop) (Φ : V → ℝ → ℝ → V) : Prop :=
  ∀ q x t dt w l, R q x t → ∃ q' w', st.doStep q x t dt (w, l) = .ok (q', Φ x t dt) (w', l) ∧ R q' (Φ x t dt) (t + dt)

/-- the states after `k` steps of size `dt` -/
def orbit (Φ : V → ℝ → ℝ → V) (t0 dt : ℝ) (x0 : V) : ℕ → V
  | 0 => x0
  | k + 1 => Φ (orbit Φ t0 dt x0 k) (t0 + k * dt) dt

/-- Along the sequence `X` of states at the times `t0 + k dt` the stepper makes the steps from `X k` to `X (k+1)`; `R k` are the states the stepper
may be in before step `k`. -/
def Follows (st : BasicStepper Q (W × Log V ℝ) V ℝ) (t0 dt : ℝ) (X : ℕ → V) (R : ℕ → Q → Prop) : Prop :=
  ∀ k q w l, R k q → ∃ q' w', st.doStep q (X k) (t0 + k * dt) dt (w, l) = .ok (q', X (k + 1)) (w', l) ∧ R (k + 1) q'

/-- observations of the states of a sequence -/
def seqObs (X : ℕ → V) (t0 dt : ℝ) (s k : ℕ) : Log V ℝ :=
  (List.range k).map fun i => .obs (X (s + i)) (t0 + ((s + i : ℕ) : ℝ) * dt)

theorem seqObs_succ (X : ℕ → V) (t0 dt : ℝ) (s k : ℕ) :
    seqObs X t0 dt s (k + 1) = .obs (X s) (t0 + (s : ℝ) * dt) :: seqObs X t0 dt (s + 1) k := by
  simp only [seqObs, List.range_succ_eq_map, List.map_cons, List.map_map, add_zero, List.cons.injEq, true_and]
  refine List.map_congr_left fun i _ => ?_
  simp only [Function.comp_apply, Nat.succ_eq_add_one, show s + (i + 1) = s + 1 + i by omega]

theorem seqObs_last (X : ℕ → V) (t0 dt : ℝ) (s k : ℕ) :
    seqObs X t0 dt s (k + 1) = seqObs X t0 dt s k ++ [.obs (X (s + k)) (t0 + ((s + k : ℕ) : ℝ) * dt)] := by
  simp [seqObs, List.range_succ]

theorem recordObserver_ok {K : Type} (x : V) (t : K) (w : W) (l : Log V K) :
    recordObserver x t (w, l) = .ok () (w, l ++ [.obs x t]) := rfl

variable {st : BasicStepper Q (W × Log V ℝ) V ℝ} {X : ℕ → V} {R : ℕ → Q → Prop} {t0 dt : ℝ}

theorem follow_nLoop (hst : Follows st t0 dt X R) (eps : ℝ) :
    ∀ (k s : ℕ) (q : Q) (w : W) (l : Log V ℝ), R s q →
    ∃ q' w', nStepsBasicLoop (TimeArith.exact ℝ eps) st recordObserver t0 dt k s ⟨q, X s, t0 + s * dt⟩ (w, l) =
      .ok ⟨q', X (s + k), t0 + ((s + k : ℕ) : ℝ) * dt⟩ (w', l ++ seqObs X t0 dt s k) := by
  intro k
  induction k with
  | zero =>
    intro s q w l _
    exact ⟨q, w, by simp [nStepsBasicLoop, seqObs, M.pure_apply]⟩
  | succ k ih =>
    intro s q w l hR
    obtain ⟨q1, w1, e1, hR1⟩ := hst s q w (l ++ [.obs (X s) (t0 + s * dt)]) hR
    obtain ⟨q2, w2, e2⟩ := ih (s + 1) q1 w1 (l ++ [.obs (X s) (t0 + s * dt)]) hR1
    refine ⟨q2, w2, ?_⟩
    rw [nStepsBasicLoop, M.bind_ok (recordObserver_ok _ _ _ _), M.bind_ok e1]
    rw [show s + (k + 1) = s + 1 + k by omega, seqObs_succ]
    exact e2.trans (by rw [List.append_assoc]; rfl)

theorem follow_cLoop (hst : Follows st t0 dt X R) (eps t1 : ℝ) (n : ℕ)
    (hlt : ∀ k : ℕ, k < n → ¬ Beyond eps dt (t0 + (k + 1 : ℕ) * dt) t1) (hn : Beyond eps dt (t0 + (n + 1 : ℕ) * dt) t1) :
    ∀ (k s : ℕ), s + k = n → ∀ (q : Q) (w : W) (l : Log V ℝ), R s q →
    ∃ q' w', whileM (fun s : ConstState Q V ℝ => (TimeArith.exact ℝ eps).lessEqWithSign ((TimeArith.exact ℝ eps).add s.time dt) t1 dt)
      (fun s => do
        recordObserver s.x s.time
        let (q, x) ← st.doStep s.q s.x s.time dt
        return ⟨q, x, (TimeArith.exact ℝ eps).add t0 ((TimeArith.exact ℝ eps).nmul (s.step + 1) dt), s.step + 1⟩)
      ⟨q, X s, t0 + s * dt, s⟩ (w, l) =
      .ok ⟨q', X n, t0 + (n : ℝ) * dt, n⟩ (w', l ++ seqObs X t0 dt s k) := by
  have hc : ∀ s : ℕ, (TimeArith.exact ℝ eps).lessEqWithSign ((TimeArith.exact ℝ eps).add (t0 + s * dt) dt) t1 dt = true ↔
      ¬ Beyond eps dt (t0 + (s + 1 : ℕ) * dt) t1 := by
    intro s
    rw [← exact_const_cond, exact_grid]
  intro k
  induction k with
  | zero =>
    rintro s rfl q w l _
    refine ⟨q, w, ?_⟩
    rw [whileM_stop]
    · simp [seqObs]
    · rw [← Bool.not_eq_true, hc]
      exact not_not.2 hn
  | succ k ih =>
    intro s hs q w l hR
    obtain ⟨q1, w1, e1, hR1⟩ := hst s q w (l ++ [.obs (X s) (t0 + s * dt)]) hR
    obtain ⟨q2, w2, e2⟩ := ih (s + 1) (by omega) q1 w1 (l ++ [.obs (X s) (t0 + s * dt)]) hR1
    refine ⟨q2, w2, ?_⟩
    rw [seqObs_succ, List.append_cons, ← e2]
    refine whileM_step_ok ((hc s).2 (hlt s (by omega))) ?_
    rw [M.bind_ok (recordObserver_ok _ _ _ _), M.bind_ok e1]
    rfl

theorem follow_nSteps (hst : Follows st t0 dt X R) (eps : ℝ) (n : ℕ) (q : Q) (w : W) (l : Log V ℝ) (hR : R 0 q) :
    ∃ w', integrateNStepsBasic (TimeArith.exact ℝ eps) st recordObserver q (X 0) t0 dt n (w, l) =
      .ok (X n, t0 + (n : ℝ) * dt) (w', l ++ seqObs X t0 dt 0 (n + 1)) := by
  obtain ⟨q', w', h⟩ := follow_nLoop hst eps n 0 q w l hR
  simp only [Nat.cast_zero, zero_mul, add_zero, zero_add] at h
  refine ⟨w', ?_⟩
  rw [integrateNStepsBasic, M.bind_ok h, M.bind_ok (recordObserver_ok _ _ _ _), seqObs_last, ← List.append_assoc]
  simp only [zero_add]
  rfl

theorem follow_const (hst : Follows st t0 dt X R) (eps t1 : ℝ) (n : ℕ)
    (hlt : ∀ k : ℕ, k < n → ¬ Beyond eps dt (t0 + (k + 1 : ℕ) * dt) t1) (hn : Beyond eps dt (t0 + (n + 1 : ℕ) * dt) t1)
    (q : Q) (w : W) (l : Log V ℝ) (hR : R 0 q) :
    ∃ w', integrateConstBasic (TimeArith.exact ℝ eps) st recordObserver q (X 0) t0 t1 dt (w, l) =
      .ok (X n, n) (w', l ++ seqObs X t0 dt 0 (n + 1)) := by
  obtain ⟨q', w', h⟩ := follow_cLoop hst eps t1 n hlt hn n 0 (by omega) q w l hR
  simp only [Nat.cast_zero, zero_mul, add_zero] at h
  refine ⟨w', ?_⟩
  rw [integrateConstBasic, M.bind_ok h, M.bind_ok (recordObserver_ok _ _ _ _), seqObs_last, ← List.append_assoc]
  simp only [zero_add]
  rfl

/-- `integrate_adaptive`; the last step is made by the stepper `q`, see `hlast`. -/
theorem follow_adaptive (hst : Follows st t0 dt X R) (eps t1 : ℝ) (n : ℕ)
    (hlt : ∀ k : ℕ, k < n → ¬ Beyond eps dt (t0 + (k + 1 : ℕ) * dt) t1) (hn : Beyond eps dt (t0 + (n + 1 : ℕ) * dt) t1)
    (q : Q) (w : W) (l : Log V ℝ) (hR : R 0 q) (y : V)
    (hlast : ∀ w l, ∃ q' w', st.doStep q (X n) (t0 + n * dt) (t1 - (t0 + n * dt)) (w, l) = .ok (q', y) (w', l)) :
    ∃ w', (¬ Beyond eps dt t1 (t0 + n * dt) ∧ integrateAdaptiveBasic (TimeArith.exact ℝ eps) st recordObserver q (X 0) t0 t1 dt (w, l) =
        .ok (X n, n) (w', l ++ seqObs X t0 dt 0 (n + 1))) ∨
      (Beyond eps dt t1 (t0 + n * dt) ∧ integrateAdaptiveBasic (TimeArith.exact ℝ eps) st recordObserver q (X 0) t0 t1 dt (w, l) =
        .ok (y, n + 1) (w', l ++ (seqObs X t0 dt 0 (n + 1) ++
          [.obs y t1]))) := by
  obtain ⟨w1, e1⟩ := follow_const hst eps t1 n hlt hn q w l hR
  by_cases hb : Beyond eps dt t1 (t0 + n * dt)
  · obtain ⟨q2, w2, e2⟩ := hlast w1 (l ++ seqObs X t0 dt 0 (n + 1))
    refine ⟨w2, .inr ⟨hb, ?_⟩⟩
    rw [integrateAdaptiveBasic, M.bind_ok e1]
    dsimp only
    rw [if_pos]
    · exact (M.bind_ok e2 _).trans ((M.bind_ok (recordObserver_ok _ _ _ _) _).trans (by rw [List.append_assoc]; rfl))
    · exact (exact_less _ _ _ _).mpr ((beyond_iff _ _ _ _).mp hb)
  · refine ⟨w1, .inl ⟨hb, ?_⟩⟩
    rw [integrateAdaptiveBasic, M.bind_ok e1]
    dsimp only
    rw [if_neg]
    · rfl
    · rw [Bool.not_eq_true]
      exact (exact_less_false _ _ _ _).mpr ((not_beyond_iff _ _ _ _).mp hb)

/-! ## Steppers that compute a function of state, time and step size -/

/-- observations of an orbit -/
def orbitObs (Φ : V → ℝ → ℝ → V) (t0 dt : ℝ) (x0 : V) (s k : ℕ) : Log V ℝ := seqObs (orbit Φ t0 dt x0) t0 dt s k

variable {S : Q → V → ℝ → Prop} {Φ : V → ℝ → ℝ → V}

theorem StepFn.follows (hst : StepFn st S Φ) (t0 dt : ℝ) (x0 : V) :
    Follows st t0 dt (orbit Φ t0 dt x0) fun k q => S q (orbit Φ t0 dt x0 k) (t0 + k * dt) := by
  intro k q w l hq
  obtain ⟨q1, w1, e1, h1⟩ := hst q _ _ dt w l hq
  refine ⟨q1, w1, e1, ?_⟩
  dsimp only
  rw [show t0 + ((k + 1 : ℕ) : ℝ) * dt = t0 + k * dt + dt by push_cast; ring]
  exact h1

theorem nSteps_run (hst : StepFn st S Φ) (eps t0 dt : ℝ) (x0 : V) (n : ℕ) (q : Q) (w : W) (l : Log V ℝ) (hR : S q x0 t0) :
    ∃ w', integrateNStepsBasic (TimeArith.exact ℝ eps) st recordObserver q x0 t0 dt n (w, l) =
      .ok (orbit Φ t0 dt x0 n, t0 + (n : ℝ) * dt) (w', l ++ orbitObs Φ t0 dt x0 0 (n + 1)) :=
  follow_nSteps (hst.follows t0 dt x0) eps n q w l (by simpa [orbit] using hR)

theorem const_run (hst : StepFn st S Φ) (eps t0 t1 dt : ℝ) (x0 : V) (n : ℕ)
    (hlt : ∀ k : ℕ, k < n → ¬ Beyond eps dt (t0 + (k + 1 : ℕ) * dt) t1) (hn : Beyond eps dt (t0 + (n + 1 : ℕ) * dt) t1)
    (q : Q) (w : W) (l : Log V ℝ) (hR : S q x0 t0) :
    ∃ w', integrateConstBasic (TimeArith.exact ℝ eps) st recordObserver q x0 t0 t1 dt (w, l) =
      .ok (orbit Φ t0 dt x0 n, n) (w', l ++ orbitObs Φ t0 dt x0 0 (n + 1)) :=
  follow_const (hst.follows t0 dt x0) eps t1 n hlt hn q w l (by simpa [orbit] using hR)

/-- `integrate_adaptive`; the last step is made by the stepper `q`, which `hlast` has to allow. -/
theorem adaptive_run (hst : StepFn st S Φ) (eps t0 t1 dt : ℝ) (x0 : V) (n : ℕ)
    (hlt : ∀ k : ℕ, k < n → ¬ Beyond eps dt (t0 + (k + 1 : ℕ) * dt) t1) (hn : Beyond eps dt (t0 + (n + 1 : ℕ) * dt) t1)
    (q : Q) (w : W) (l : Log V ℝ) (hR : S q x0 t0) (hlast : S q (orbit Φ t0 dt x0 n) (t0 + n * dt)) :
    ∃ w', (¬ Beyond eps dt t1 (t0 + n * dt) ∧ integrateAdaptiveBasic (TimeArith.exact ℝ eps) st recordObserver q x0 t0 t1 dt (w, l) =
        .ok (orbit Φ t0 dt x0 n, n) (w', l ++ orbitObs Φ t0 dt x0 0 (n + 1))) ∨
      (Beyond eps dt t1 (t0 + n * dt) ∧ integrateAdaptiveBasic (TimeArith.exact ℝ eps) st recordObserver q x0 t0 t1 dt (w, l) =
        .ok (Φ (orbit Φ t0 dt x0 n) (t0 + n * dt) (t1 - (t0 + n * dt)), n + 1) (w', l ++ (orbitObs Φ t0 dt x0 0 (n + 1) ++
          [.obs (Φ (orbit Φ t0 dt x0 n) (t0 + n * dt) (t1 - (t0 + n * dt))) t1]))) :=
  follow_adaptive (hst.follows t0 dt x0) eps t1 n hlt hn q w l (by simpa [orbit] using hR) _ fun w l => by
    obtain ⟨q1, w1, e1, -⟩ := hst q _ _ (t1 - (t0 + n * dt)) w l hlast
    exact ⟨q1, w1, e1⟩

end Verif
