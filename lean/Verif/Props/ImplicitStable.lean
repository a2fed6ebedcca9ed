import Verif.Spec.ImplicitStable
import Verif.Lemmas.StepTrace
import Verif.Props.Convergence
import Verif.Props.ImplicitEuler
import Verif.Props.ImplicitEulerMtl4

/-!
# C87: `implicit_euler` is stable for dissipative systems, whatever the step size

* `implicit_euler_stable_linear`: systems that are linear in the state, any number of equations,
* `implicit_euler_stable_scalar`: one equation, any right-hand side that does not increase with the state,
* `mtl4_stable_linear`: `implicit_euler_mtl4`, for systems that are linear in the state,
* `mtl4_not_stable`, `euler_not_stable`: the corresponding statements are false for `implicit_euler_mtl4` and nonlinear systems, and for `euler`.
-/

namespace Verif
open Finset
variable {W Pm Q : Type} {n : ℕ}

theorem len_eq (v : Fin n → ℝ) : len v = ‖(WithLp.toLp 2 v : EuclideanSpace ℝ (Fin n))‖ := by
  rw [EuclideanSpace.norm_eq]; simp [len]

theorem len_add_le (u v : Fin n → ℝ) : len (u + v) ≤ len u + len v := by
  simp only [len_eq, WithLp.toLp_add]; exact norm_add_le _ _

theorem len_neg (v : Fin n → ℝ) : len (-v) = len v := by simp [len]

theorem len_sub_le (u v : Fin n → ℝ) : len (u - v) ≤ len u + len v := by
  rw [sub_eq_add_neg, ← len_neg v]; exact len_add_le _ _

theorem len_nonneg (v : Fin n → ℝ) : 0 ≤ len v := Real.sqrt_nonneg _

theorem len_sq (v : Fin n → ℝ) : len v ^ 2 = ∑ i, v i ^ 2 := Real.sq_sqrt (sum_nonneg fun _ _ => sq_nonneg _)

/-- Two solutions of the equation of the implicit Euler step, up to defects. -/
theorem implicit_contract {f : (Fin n → ℝ) → ℝ → Fin n → ℝ} (hf : Dissipative f) {h : ℝ} (hh : 0 ≤ h) (x z m p : Fin n → ℝ) (s : ℝ) :
    len (m - p) ≤ len (x - z) + len (m - x - h • f m s) + len (p - z - h • f p s) := by
  set v := (x - z) + (m - x - h • f m s) - (p - z - h • f p s) with hv
  have h1 : ∑ i, (m - p) i ^ 2 = ∑ i, (m - p) i * v i + h * ∑ i, (m i - p i) * (f m s i - f p s i) := by
    rw [mul_sum, ← sum_add_distrib]
    refine sum_congr rfl fun i _ => ?_
    simp only [hv, Pi.sub_apply, Pi.add_apply, Pi.smul_apply, smul_eq_mul]
    ring
  have h2 : ∑ i, (m - p) i * v i ≤ len (m - p) * len v := Real.sum_mul_le_sqrt_mul_sqrt _ _ _
  have h3 : len (m - p) ^ 2 ≤ len (m - p) * len v := by
    rw [len_sq, h1]
    have := mul_nonpos_of_nonneg_of_nonpos hh (hf m p s)
    linarith
  have h4 : len (m - p) ≤ len v := by
    rcases (len_nonneg (m - p)).eq_or_lt with h0 | h0
    · rw [← h0]; exact len_nonneg _
    · rw [sq] at h3; exact le_of_mul_le_mul_left h3 h0
  refine h4.trans ((len_sub_le _ _).trans (add_le_add (len_add_le _ _) le_rfl))

/-- `y` is the result of an implicit Euler step, up to `δ` in the equation and in the state. -/
def NearStep (f : (Fin n → ℝ) → ℝ → Fin n → ℝ) (δ : ℝ) (x : Fin n → ℝ) (t h : ℝ) (y : Fin n → ℝ) : Prop :=
  ∃ m, len (m - x - h • f m (t + h)) + len (y - m) ≤ δ

theorem NearStep.contract {f : (Fin n → ℝ) → ℝ → Fin n → ℝ} (hf : Dissipative f) {δ h t : ℝ} (hh : 0 ≤ h) {x z y u : Fin n → ℝ} (h1 : NearStep f δ x t h y)
    (h2 : NearStep f δ z t h u) : len (y - u) ≤ len (x - z) + 2 * δ := by
  obtain ⟨m, h1⟩ := h1
  obtain ⟨p, h2⟩ := h2
  have h3 := implicit_contract hf hh x z m p (t + h)
  have h4 : y - u = (m - p) + ((y - m) - (u - p)) := by abel
  have h5 := len_add_le (m - p) ((y - m) - (u - p))
  have h6 := len_sub_le (y - m) (u - p)
  rw [h4]
  linarith

theorem together_grid {δ t0 dt : ℝ} {X Z : ℕ → Fin n → ℝ} {m : ℕ} (h : ∀ j < m, len (X (j + 1) - Z (j + 1)) ≤ len (X j - Z j) + δ) :
    StayTogether δ (seqObs X t0 dt 0 (m + 1)) (seqObs Z t0 dt 0 (m + 1)) := by
  unfold StayTogether
  rw [seqObs_observations, seqObs_observations]
  refine ⟨by simp, fun k a b c d ha hb hc hd => ?_⟩
  have hk : k < m := by
    have := (List.getElem?_eq_some_iff.1 hc).1
    simpa using this
  simp only [List.getElem?_map, List.getElem?_range (show k < m + 1 by omega), List.getElem?_range (show k + 1 < m + 1 by omega), Option.map_some,
    Option.some.injEq] at ha hb hc hd
  subst ha hb hc hd
  exact h k hk

theorem together_snoc {δ t0 dt t1 : ℝ} {X Z : ℕ → Fin n → ℝ} {m : ℕ} (h : ∀ j < m, len (X (j + 1) - Z (j + 1)) ≤ len (X j - Z j) + δ) {y u : Fin n → ℝ}
    (hy : len (y - u) ≤ len (X m - Z m) + δ) :
    StayTogether δ (seqObs X t0 dt 0 (m + 1) ++ [.obs y t1]) (seqObs Z t0 dt 0 (m + 1) ++ [.obs u t1]) := by
  obtain ⟨h1, h2⟩ := together_grid (t0 := t0) (dt := dt) h
  unfold StayTogether
  have e : ∀ (X : ℕ → Fin n → ℝ) y, Log.observations (seqObs X t0 dt 0 (m + 1) ++ [.obs y t1]) =
      ((List.range (m + 1)).map fun i : ℕ => (X i, t0 + (i : ℝ) * dt)) ++ [(y, t1)] := by
    intro X y
    rw [← seqObs_observations]
    simp [Log.observations]
  rw [e, e]
  refine ⟨by simp, fun k a b c d ha hb hc hd => ?_⟩
  have hk : k < m + 1 := by
    have := (List.getElem?_eq_some_iff.1 hc).1
    simpa using this
  rw [List.getElem?_append_left (by simpa using hk)] at ha hb
  rcases Nat.lt_succ_iff_lt_or_eq.1 hk with hk' | rfl
  · rw [List.getElem?_append_left (by simpa using hk')] at hc hd
    rw [seqObs_observations, seqObs_observations] at h2
    exact h2 k a b c d ha hb hc hd
  · rw [List.getElem?_append_right (by simp)] at hc hd
    simp only [List.length_map, List.length_range, Nat.sub_self, List.getElem?_cons_zero, Option.some.injEq] at hc hd
    simp only [List.getElem?_map, List.getElem?_range hk, Option.map_some, Option.some.injEq] at ha hb
    subst ha hb hc hd
    exact hy

theorem dist_grid {δ : ℝ} {X Z : ℕ → Fin n → ℝ} {m : ℕ} (h : ∀ j < m, len (X (j + 1) - Z (j + 1)) ≤ len (X j - Z j) + δ) :
    len (X m - Z m) ≤ len (X 0 - Z 0) + m * δ := by
  induction m with
  | zero => simp
  | succ m ih =>
    have := ih fun j hj => h j (by omega)
    have := h m (by omega)
    push_cast
    linarith

theorem unique_stop {p : ℕ → Bool} {k k' : ℕ} (h1 : ∀ j < k, p j = true) (h2 : p k = false) (h1' : ∀ j < k', p j = true) (h2' : p k' = false) : k = k' := by
  rcases lt_trichotomy k k' with h | h | h
  · rw [h1' k h] at h2; cases h2
  · exact h
  · rw [h1 k' h] at h2'; cases h2'

/-- Integrations with steps that nearly solve the equation of the implicit Euler method. -/
theorem keeps_together {f : (Fin n → ℝ) → ℝ → Fin n → ℝ} (hf : Dissipative f) {δ dt : ℝ} (hdt : 0 < dt) {st : BasicStepper Q (W × Log (Fin n → ℝ) ℝ) (Fin n → ℝ) ℝ}
    (hst : StepsRelated (fun x t h y => 0 < h → h ≤ dt → NearStep f δ x t h y) st) : KeepsTogether (2 * δ) dt st := by
  intro eps t0 t1 x0 z0 q q' w w' l l' heps
  refine ⟨?_, ?_, ?_⟩
  · intro m x z t t' w₁ w₂ l₁ l₂ h1 h2
    have g1 := nSteps_trace eps hst q x0 t0 dt m w l
    have g2 := nSteps_trace eps hst q' z0 t0 dt m w' l'
    rw [h1] at g1
    rw [h2] at g2
    obtain ⟨a, ⟨X, hX0, hXm, hX, rfl⟩, ha, -⟩ := g1
    obtain ⟨b, ⟨Z, hZ0, hZm, hZ, rfl⟩, hb, -⟩ := g2
    dsimp only at hXm hZm ha hb
    subst hXm hZm
    have hd : ∀ j < m, len (X (j + 1) - Z (j + 1)) ≤ len (X j - Z j) + 2 * δ := fun j hj =>
      (hX j hj hdt le_rfl).contract hf hdt.le (hZ j hj hdt le_rfl)
    refine ⟨seqObs X t0 dt 0 (m + 1), seqObs Z t0 dt 0 (m + 1), by rw [ha, seqObs_last, zero_add, List.append_assoc],
      by rw [hb, seqObs_last, zero_add, List.append_assoc], together_grid hd, ?_⟩
    rw [← hX0, ← hZ0]
    exact dist_grid hd
  · intro m m' x z w₁ w₂ l₁ l₂ h1 h2
    have g1 := const_trace eps hst q x0 t0 t1 dt w l
    have g2 := const_trace eps hst q' z0 t0 t1 dt w' l'
    rw [h1] at g1
    rw [h2] at g2
    obtain ⟨a, ⟨X, hX0, hXm, hX, rfl⟩, ha, s1, s2⟩ := g1
    obtain ⟨b, ⟨Z, hZ0, hZm, hZ, rfl⟩, hb, s1', s2'⟩ := g2
    dsimp only at hXm hZm ha hb s1 s2 s1' s2' hX hZ
    obtain rfl := unique_stop s1 s2 s1' s2'
    subst hXm hZm
    have hd : ∀ j < m, len (X (j + 1) - Z (j + 1)) ≤ len (X j - Z j) + 2 * δ := fun j hj =>
      (hX j hj hdt le_rfl).contract hf hdt.le (hZ j hj hdt le_rfl)
    refine ⟨rfl, seqObs X t0 dt 0 (m + 1), seqObs Z t0 dt 0 (m + 1), by rw [ha, seqObs_last, zero_add, List.append_assoc],
      by rw [hb, seqObs_last, zero_add, List.append_assoc], together_grid hd, ?_⟩
    rw [← hX0, ← hZ0]
    exact dist_grid hd
  · intro m m' x z w₁ w₂ l₁ l₂ h1 h2
    have g1 := adaptive_trace eps hst q x0 t0 t1 dt w l
    have g2 := adaptive_trace eps hst q' z0 t0 t1 dt w' l'
    rw [h1] at g1
    rw [h2] at g2
    obtain ⟨k, y, a, ⟨X, hX0, hXm, hX, rfl⟩, s1, s2, c1⟩ := g1
    obtain ⟨k', u, b, ⟨Z, hZ0, hZm, hZ, rfl⟩, s1', s2', c2⟩ := g2
    obtain rfl := unique_stop s1 s2 s1' s2'
    dsimp only at c1 c2
    subst hXm hZm
    have hd : ∀ j < k, len (X (j + 1) - Z (j + 1)) ≤ len (X j - Z j) + 2 * δ := fun j hj =>
      (hX j hj hdt le_rfl).contract hf hdt.le (hZ j hj hdt le_rfl)
    have hk := dist_grid hd
    rw [hX0, hZ0] at hk
    rcases c1 with ⟨c1, r1, e1⟩ | ⟨c1, r1, n1, e1⟩ <;> rcases c2 with ⟨c2, r2, e2⟩ | ⟨c2, r2, n2, e2⟩
    · cases r1
      cases r2
      refine ⟨rfl, seqObs X t0 dt 0 (m + 1), seqObs Z t0 dt 0 (m + 1), by rw [e1, seqObs_last, zero_add, List.append_assoc],
        by rw [e2, seqObs_last, zero_add, List.append_assoc], together_grid hd, hk⟩
    · rw [c1] at c2; cases c2
    · rw [c1] at c2; cases c2
    · subst n1 n2
      rw [exact_less] at c1
      rw [exact_lessEq_false] at s2
      have hs : dirSign dt = 1 := by simp [dirSign, hdt]
      rw [hs, one_mul] at c1 s2
      have hy := (r1 (by linarith) (by linarith)).contract hf (by linarith) (r2 (by linarith) (by linarith))
      refine ⟨rfl, seqObs X t0 dt 0 (k + 1) ++ [.obs x t1], seqObs Z t0 dt 0 (k + 1) ++ [.obs z t1],
        by rw [e1, seqObs_last, zero_add]; simp only [List.append_assoc], by rw [e2, seqObs_last, zero_add]; simp only [List.append_assoc],
        together_snoc hd hy, ?_⟩
      push_cast
      linarith

/-- Linear systems whose matrix is dissipative. -/
theorem linear_dissipative {A : ℝ → Matrix (Fin n) (Fin n) ℝ} (hA : ∀ v t, ∑ i, v i * (A t).mulVec v i ≤ 0) (c : ℝ → Fin n → ℝ) :
    Dissipative fun x t => (A t).mulVec x + c t := by
  intro x y t
  have := hA (x - y) t
  simpa [Matrix.mulVec_sub] using this

/-- **C87**, systems that are linear in the state, `x' = A( t ) x + c( t )`, with `v · A( t ) v ≤ 0` for all `v`: two integrations never move apart, whatever the
step size. -/
theorem implicit_euler_stable_linear (L : Lu ℝ n Pm) (hL : L.Solves) (large : (Fin n → ℝ) → Bool) (hlarge : large 0 = false) {sys : Sys ℝ (Fin n → ℝ) W}
    {jac : IeJac ℝ W n} (hs : sys.Defined) (hj : jac.Defined) (hh : IeHalts sys jac) (A : ℝ → Matrix (Fin n) (Fin n) ℝ) (c : ℝ → Fin n → ℝ)
    (hf : Returns sys fun x t => (A t).mulVec x + c t) (hJ : jac.Returns A) (hA : ∀ v t, ∑ i, v i * (A t).mulVec v i ≤ 0) (dt : ℝ) (hdt : 0 < dt) :
    KeepsTogether 0 dt (ieObject L large sys jac) := by
  have := keeps_together (W := W) (δ := 0) (linear_dissipative hA c) hdt (st := ieObject L large sys jac) fun q x t h w l q' y w' l' e => by
    have h1 := implicit_euler_linear L hL large hlarge hs hj hh A c hf hJ t h ⟨x, w⟩
    unfold ieDoStep at h1
    simp only [ieObject] at e
    cases hr : ieStep L large sys jac x t h w with
    | ok o w₁ =>
      rw [hr] at e h1
      cases o with
      | none => cases e
      | some y' =>
        cases e
        simp only [Res.Sat, if_true] at h1
        refine ⟨rfl, fun _ _ => ⟨y, ?_⟩⟩
        have e2 : y - x - h • ((A (t + h)).mulVec y + c (t + h)) = 0 := by
          rw [sub_sub, sub_eq_zero]; exact h1
        rw [e2]
        simp [len]
    | err e' w₁ => rw [hr] at e; cases e
    | ub => rw [hr] at e; cases e
    | div => rw [hr] at e; cases e
  simpa using this

/-- **C87**, one equation with a right-hand side that does not increase with the state: two integrations move apart by at most `2 ( 2 + B dt ) ε` per step,
whatever the step size, where `ε` is the tolerance of the stepper and `B` a bound for the derivative. -/
theorem implicit_euler_stable_scalar (L : Lu ℝ 1 Pm) (hL : L.Scalar) (ε : ℝ) {sys : Sys ℝ (Fin 1 → ℝ) W} {jac : IeJac ℝ W 1} (hs : sys.Defined)
    (hj : jac.Defined) (f : (Fin 1 → ℝ) → ℝ → Fin 1 → ℝ) (hf : Returns sys f) (hd : Dissipative f) (df : (Fin 1 → ℝ) → ℝ → ℝ)
    (hJ : ∀ x t w J w', jac x t w = .ok J w' → J 0 0 = df x t) (B : ℝ) (hB : ∀ x t, |df x t| ≤ B) (dt : ℝ) (hdt : 0 < dt) :
    KeepsTogether (2 * ((2 + B * dt) * ε)) dt (ieObject L (fun b => decide (ε < len b)) sys jac) := by
  refine keeps_together hd hdt fun q x t h w l q' y w' l' e => ?_
  have h1 := implicit_euler_scalar L hL (fun b => decide (ε < len b)) hs hj f hf df hJ t h ⟨x, w⟩
  unfold ieDoStep at h1
  simp only [ieObject] at e
  cases hr : ieStep L (fun b => decide (ε < len b)) sys jac x t h w with
  | ok o w₁ =>
    rw [hr] at e h1
    cases o with
    | none => cases e
    | some y' =>
      cases e
      simp only [Res.Sat, if_true] at h1
      obtain ⟨-, m, b, hb, hy, hr⟩ := h1
      refine ⟨rfl, fun h0 hh => ⟨m, ?_⟩⟩
      have hb' : len b ≤ ε := by simpa using hb
      have e1 : m - x - h • f m (t + h) = (1 - h * df x (t + h)) • b := by
        have : (1 - h * df x (t + h)) • b = -((h * df x (t + h) - 1) • b) := by rw [← neg_smul]; congr 1; ring
        rw [this, hr]; abel
      have e2 : y - m = -b := by rw [hy]; abel
      have e3 : len ((1 - h * df x (t + h)) • b) = |1 - h * df x (t + h)| * len b := by
        rw [len_eq, WithLp.toLp_smul, norm_smul, Real.norm_eq_abs, ← len_eq]
      rw [e1, e2, e3, len_neg]
      have h2 : |1 - h * df x (t + h)| ≤ 1 + B * dt := by
        have h3 := abs_le.1 (hB x (t + h))
        have hB0 : 0 ≤ B := (abs_nonneg _).trans (hB x (t + h))
        have h4 : h * df x (t + h) ≤ B * dt := by nlinarith
        have h5 : -(B * dt) ≤ h * df x (t + h) := by nlinarith
        rw [abs_le]; constructor <;> linarith
      have h6 := len_nonneg b
      have h7 := abs_nonneg (1 - h * df x (t + h))
      have h8 : |1 - h * df x (t + h)| * len b ≤ (1 + B * dt) * ε := mul_le_mul h2 hb' h6 (by linarith)
      linarith
  | err e' w₁ => rw [hr] at e; cases e
  | ub => rw [hr] at e; cases e
  | div => rw [hr] at e; cases e

/-- **C87**, `implicit_euler_mtl4` for systems that are linear in the state: two integrations move apart by at most twice the residual of the linear solver per
step. -/
theorem mtl4_stable_linear (solver : LinearSolver ℝ n) (ε : ℝ) (A : ℝ → Matrix (Fin n) (Fin n) ℝ)
    (hsolver : ∀ (t h : ℝ) (x b : Fin n → ℝ), 0 < h → len (b - (h • A t - 1).mulVec (solver (h • A t - 1) x b)) ≤ ε)
    {sys : Sys ℝ (Fin n → ℝ) W} {jac : IeJac ℝ W n} (hs : sys.Defined) (hj : jac.Defined) (hh : IeHalts sys jac)
    (c : ℝ → Fin n → ℝ) (hf : Returns sys fun x t => (A t).mulVec x + c t) (hJ : jac.Returns A) (hA : ∀ v t, ∑ i, v i * (A t).mulVec v i ≤ 0) (dt : ℝ)
    (hdt : 0 < dt) : KeepsTogether (2 * ε) dt (ieMtl4Object solver sys jac) := by
  refine keeps_together (linear_dissipative hA c) hdt fun q x t h w l q' y w' l' e => ?_
  have h1 := mtl4_linear solver hs hj hh A c hf hJ t h ⟨x, w⟩
  unfold ieMtl4DoStep at h1
  simp only [ieMtl4Object] at e
  cases hr : ieMtl4Step solver sys jac x t h w with
  | ok y' w₁ =>
    rw [hr] at e h1
    cases e
    obtain ⟨b, -, h2⟩ := h1
    refine ⟨rfl, fun h0 _ => ⟨y, ?_⟩⟩
    have h3 := hsolver (t + h) h x b h0
    rw [← h2] at h3
    have h4 : len (y - y) = 0 := by simp [len]
    rw [h4, add_zero]
    exact h3
  | err e' w₁ => rw [hr] at e; cases e
  | ub => rw [hr] at e; cases e
  | div => rw [hr] at e; cases e

/-! ## Concrete cases -/

/-- a system function and a Jacobian that always return -/
def plainSys (f : (Fin n → ℝ) → ℝ → Fin n → ℝ) : Sys ℝ (Fin n → ℝ) Unit := fun x t => pure (f x t)
def plainJac (J : (Fin n → ℝ) → ℝ → Matrix (Fin n) (Fin n) ℝ) : IeJac ℝ Unit n := fun x t => pure (J x t)

theorem plain_halts (f : (Fin n → ℝ) → ℝ → Fin n → ℝ) (J : (Fin n → ℝ) → ℝ → Matrix (Fin n) (Fin n) ℝ) :
    (plainSys f).Defined ∧ (plainJac J).Defined ∧ IeHalts (plainSys f) (plainJac J) ∧ Returns (plainSys f) f := by
  refine ⟨fun _ _ _ h => (nomatch h), fun _ _ _ h => (nomatch h), ⟨fun _ _ _ h => (nomatch h), fun _ _ _ h => (nomatch h)⟩, fun _ _ _ _ _ h => ?_⟩
  cases h; rfl

/-- An integration with one step. -/
theorem one_step {st : BasicStepper Q (W × Log (Fin n → ℝ) ℝ) (Fin n → ℝ) ℝ} {q q' : Q} {x y : Fin n → ℝ} {t dt : ℝ} {w w' : W} {l : Log (Fin n → ℝ) ℝ}
    (h : st.doStep q x t dt (w, l ++ [.obs x t]) = .ok (q', y) (w', l ++ [.obs x t])) :
    integrateNStepsBasic (TimeArith.exact ℝ 0) st recordObserver q x t dt 1 (w, l) = .ok (y, t + dt) (w', l ++ [.obs x t] ++ [.obs y (t + dt)]) := by
  unfold integrateNStepsBasic
  have e : nStepsBasicLoop (TimeArith.exact ℝ 0) st recordObserver t dt 1 0 ⟨q, x, t⟩ (w, l) = .ok ⟨q', y, t + dt⟩ (w', l ++ [.obs x t]) := by
    simp only [nStepsBasicLoop]
    have o1 : recordObserver x t (w, l) = .ok () (w, l ++ [.obs x t]) := rfl
    rw [M.bind_ok o1, M.bind_ok h]
    simp [TimeArith.exact, M.pure_apply]
  rw [M.bind_ok e]
  rfl

/-- Non-vacuity of `implicit_euler_stable_linear`: a fast damped rotation in the plane, with the exact solver. -/
example (dt : ℝ) (hdt : 0 < dt) :
    KeepsTogether 0 dt (ieObject (inverseLu 2) (fun b => decide (1 < len b)) (plainSys fun x _ => (!![-1, 1000; -1000, -1] : Matrix (Fin 2) (Fin 2) ℝ).mulVec x + 0)
      (plainJac fun _ _ => !![-1, 1000; -1000, -1])) := by
  obtain ⟨h1, h2, h3, h4⟩ := plain_halts (fun x (_ : ℝ) => (!![-1, 1000; -1000, -1] : Matrix (Fin 2) (Fin 2) ℝ).mulVec x + 0) (fun _ _ => !![-1, 1000; -1000, -1])
  refine implicit_euler_stable_linear (inverseLu 2) (inverseLu_solves 2) _ (by simp [len]) h1 h2 h3 (fun _ => !![-1, 1000; -1000, -1]) 0 h4
    (fun _ _ _ _ _ h => by cases h; rfl) (fun v t => ?_) dt hdt
  simp only [Fin.sum_univ_two, Matrix.mulVec, dotProduct, Matrix.of_apply, Matrix.cons_val', Matrix.cons_val_zero, Matrix.cons_val_one, Matrix.cons_val_fin_one]
  nlinarith [sq_nonneg (v 0), sq_nonneg (v 1)]

/-- ... and with the algorithm of ublas calls do return: `x' = -1000 x` with the step size one. -/
theorem stiff_returns (x0 : Fin 1 → ℝ) : ∃ x t w l, integrateNStepsBasic (TimeArith.exact ℝ 0)
    (ieObject (ublasLu abs (fun a b => decide (a ≤ b)) 1) (fun b => decide (1 / 10 < len b)) (plainSys fun x _ => (!![-1000] : Matrix (Fin 1) (Fin 1) ℝ).mulVec x + 0)
      (plainJac fun _ _ => !![-1000])) recordObserver () x0 0 1 1 ((), []) = .ok (x, t) (w, l) ∧ 1001 * x 0 = x0 0 := by
  obtain ⟨h1, h2, h3, h4⟩ := plain_halts (fun x (_ : ℝ) => (!![-1000] : Matrix (Fin 1) (Fin 1) ℝ).mulVec x + 0) (fun _ _ => !![-1000])
  have h := implicit_euler_regular_partial abs (fun a b => decide (a ≤ b)) (fun b : Fin 1 → ℝ => decide (1 / 10 < len b)) (by simp [len]) h1 h2 h3
    (fun _ => !![-1000]) 0 h4 (fun _ _ _ _ _ h => by cases h; rfl) 0 1 (by norm_num) ⟨x0, ()⟩
  unfold ieDoStep at h
  simp only at h
  have hne : ∀ e w, ieStep (ublasLu abs (fun a b => decide (a ≤ b)) 1) (fun b => decide (1 / 10 < len b))
      (plainSys fun x _ => (!![-1000] : Matrix (Fin 1) (Fin 1) ℝ).mulVec x + 0) (plainJac fun _ _ => !![-1000]) x0 0 1 () ≠ .err e w := by
    intro e w he
    have h5 : (ieStep (ublasLu abs (fun a b => decide (a ≤ b)) 1) (fun b => decide (1 / 10 < len b))
        (plainSys fun x _ => (!![-1000] : Matrix (Fin 1) (Fin 1) ℝ).mulVec x + 0) (plainJac fun _ _ => !![-1000]) x0 0 1 ()).Leaves (fun _ _ => True)
        (fun _ _ => False) := by
      unfold ieStep
      refine Res.Leaves.bind (R := fun _ _ => True) trivial fun o w' _ => ?_
      refine Res.Leaves.bind (whileM_leaves (fun _ _ => True) (fun s w'' _ _ => ?_) trivial) fun _ _ _ => trivial
      cases s <;> trivial
    rw [he] at h5
    exact h5
  cases hr : ieStep (ublasLu abs (fun a b => decide (a ≤ b)) 1) (fun b => decide (1 / 10 < len b))
      (plainSys fun x _ => (!![-1000] : Matrix (Fin 1) (Fin 1) ℝ).mulVec x + 0) (plainJac fun _ _ => !![-1000]) x0 0 1 () with
  | ok o w =>
    rw [hr] at h
    cases o with
    | none => cases h.1
    | some y =>
      have hy := congrFun h.2 0
      refine ⟨y, 0 + 1, (), _, one_step (q' := ()) (w' := ()) ?_, ?_⟩
      · simp only [ieObject, hr]
      · simp [dotProduct] at hy
        linarith
  | err e w => exact absurd hr (hne e w)
  | ub => rw [hr] at h; exact h.elim
  | div => rw [hr] at h; exact h.elim

/-- A force that is at most one. -/
noncomputable def boundedForce (x : Fin 1 → ℝ) (_ : ℝ) : Fin 1 → ℝ := fun i => -max (-1) (min 1 (x i))
noncomputable def boundedForceJac (x : Fin 1 → ℝ) (_ : ℝ) : Matrix (Fin 1) (Fin 1) ℝ := !![if |x 0| < 1 then -1 else 0]

theorem boundedForce_dissipative : Dissipative boundedForce := by
  intro x y t
  simp only [Fin.sum_univ_one, boundedForce]
  rcases le_total (x 0) (y 0) with h | h
  · have : max (-1) (min 1 (x 0)) ≤ max (-1) (min 1 (y 0)) := max_le_max le_rfl (min_le_min le_rfl h)
    nlinarith
  · have : max (-1) (min 1 (y 0)) ≤ max (-1) (min 1 (x 0)) := max_le_max le_rfl (min_le_min le_rfl h)
    nlinarith

/-- **C87 does not hold for `implicit_euler_mtl4` and nonlinear systems**: it makes one Newton iteration only.  With the step size 10, a step from 2 ends at -8, but
a step from the equilibrium 0 stays there. -/
theorem mtl4_not_stable : Dissipative boundedForce ∧
    ¬ KeepsTogether 0 10 (ieMtl4Object (fun (m : Matrix (Fin 1) (Fin 1) ℝ) _ b _ => b 0 / m 0 0) (plainSys boundedForce) (plainJac boundedForceJac)) := by
  refine ⟨boundedForce_dissipative, fun h => ?_⟩
  obtain ⟨h, -⟩ := h 0 0 0 (fun _ => 2) (fun _ => 0) () () () () [] [] le_rfl
  have h := h 1 (fun _ => -8) (fun _ => 0) 10 10 () () [.obs (fun _ => 2) 0, .obs (fun _ => -8) 10] [.obs (fun _ => 0) 0, .obs (fun _ => 0) 10] ?_ ?_
  · obtain ⟨o, o', -, -, -, h⟩ := h
    simp only [len, Fin.sum_univ_one, Pi.sub_apply] at h
    rw [show ((-8 : ℝ) - 0) ^ 2 = 8 ^ 2 by norm_num, show ((2 : ℝ) - 0) ^ 2 = 2 ^ 2 by norm_num, Real.sqrt_sq (by norm_num), Real.sqrt_sq (by norm_num)] at h
    norm_num at h
  · have := one_step (st := ieMtl4Object (fun (m : Matrix (Fin 1) (Fin 1) ℝ) _ b _ => b 0 / m 0 0) (plainSys boundedForce) (plainJac boundedForceJac)) (q := ()) (q' := ())
      (x := fun _ => 2) (y := fun _ => -8) (t := 0) (dt := 10) (w := ()) (w' := ()) (l := []) ?_
    · simpa using this
    · have e : ieMtl4Step (fun (m : Matrix (Fin 1) (Fin 1) ℝ) _ b _ => b 0 / m 0 0) (plainSys boundedForce) (plainJac boundedForceJac) (fun _ => 2) 0 10 () =
          .ok (fun _ => -8) () := by
        show Res.ok _ _ = _
        congr 1
        funext i
        simp [boundedForce, boundedForceJac]
        norm_num
      simp only [ieMtl4Object, e]
  · have := one_step (st := ieMtl4Object (fun (m : Matrix (Fin 1) (Fin 1) ℝ) _ b _ => b 0 / m 0 0) (plainSys boundedForce) (plainJac boundedForceJac)) (q := ()) (q' := ())
      (x := fun _ => 0) (y := fun _ => 0) (t := 0) (dt := 10) (w := ()) (w' := ()) (l := []) ?_
    · simpa using this
    · have e : ieMtl4Step (fun (m : Matrix (Fin 1) (Fin 1) ℝ) _ b _ => b 0 / m 0 0) (plainSys boundedForce) (plainJac boundedForceJac) (fun _ => 0) 0 10 () =
          .ok (fun _ => 0) () := by
        show Res.ok _ _ = _
        congr 1
        funext i
        simp [boundedForce, boundedForceJac]
      simp only [ieMtl4Object, e]

/-- Non-vacuity of `implicit_euler_stable_scalar`: `implicit_euler` is stable for this system, with the algorithm of ublas. -/
example (dt : ℝ) (hdt : 0 < dt) : KeepsTogether (2 * ((2 + 1 * dt) * (1 / 10 ^ 6))) dt
    (ieObject (ublasLu abs (fun a b => decide (a ≤ b)) 1) (fun b => decide (1 / 10 ^ 6 < len b)) (plainSys boundedForce) (plainJac boundedForceJac)) := by
  obtain ⟨h1, h2, -, h4⟩ := plain_halts boundedForce boundedForceJac
  refine implicit_euler_stable_scalar _ (ublasLu_scalar _ _) _ h1 h2 boundedForce h4 boundedForce_dissipative (fun x t => boundedForceJac x t 0 0)
    (fun _ _ _ _ _ h => by cases h; rfl) 1 (fun x t => ?_) dt hdt
  simp only [boundedForceJac, Matrix.of_apply, Matrix.cons_val_fin_one]
  split <;> simp

/-- Non-vacuity of `mtl4_stable_linear`: one equation and an exact solver. -/
example (dt : ℝ) (hdt : 0 < dt) :
    KeepsTogether (2 * 0) dt (ieMtl4Object (fun (m : Matrix (Fin 1) (Fin 1) ℝ) _ b _ => b 0 / m 0 0)
      (plainSys fun x _ => (!![-1000] : Matrix (Fin 1) (Fin 1) ℝ).mulVec x + 0) (plainJac fun _ _ => !![-1000])) := by
  obtain ⟨h1, h2, h3, h4⟩ := plain_halts (fun x (_ : ℝ) => (!![-1000] : Matrix (Fin 1) (Fin 1) ℝ).mulVec x + 0) (fun _ _ => !![-1000])
  refine mtl4_stable_linear _ 0 (fun _ => !![-1000]) (fun t h x b h0 => ?_) h1 h2 h3 0 h4 (fun _ _ _ _ _ h => by cases h; rfl) (fun v t => ?_) dt hdt
  · have : h * (-1000) - 1 ≠ 0 := by linarith
    simp only [len, Fin.sum_univ_one, Matrix.mulVec, dotProduct, Pi.sub_apply, Matrix.sub_apply, Matrix.smul_apply, Matrix.of_apply, Matrix.cons_val_fin_one,
      Matrix.one_apply_eq, smul_eq_mul]
    rw [mul_div_cancel₀ _ this]
    simp
  · simp only [Fin.sum_univ_one, Matrix.mulVec, dotProduct, Matrix.of_apply, Matrix.cons_val_fin_one]
    nlinarith [sq_nonneg (v 0)]

/-- ... but `euler` is not stable: a step of `x' = -3 x` with the step size one from 1 ends at -2. -/
theorem euler_not_stable : Dissipative (fun (x : Fin 1 → ℝ) (_ : ℝ) => (-3 : ℝ) • x) ∧
    ¬ KeepsTogether 0 1 (stepperObject fun l t dt => doStep1 (ExplicitStepper.euler : ExplicitStepper ℝ).impl (plainSys fun (x : Fin 1 → ℝ) _ => (-3 : ℝ) • x) l t dt) := by
  constructor
  · intro x y t
    simp only [Fin.sum_univ_one, Pi.smul_apply, smul_eq_mul]
    nlinarith [sq_nonneg (x 0 - y 0)]
  · intro h
    let q : Heap ℝ (Fin 1 → ℝ) Unit := ⟨fun _ => 0, fun _ => 0, fun _ => false, fun _ => 0, ()⟩
    obtain ⟨h, -⟩ := h 0 0 0 (fun _ => 1) (fun _ => 0) q q () () [] [] le_rfl
    have step : ∀ (x : Fin 1 → ℝ) (l : Log (Fin 1 → ℝ) ℝ), ∃ q', (stepperObject fun l t dt => doStep1 (ExplicitStepper.euler : ExplicitStepper ℝ).impl
        (plainSys fun (x : Fin 1 → ℝ) _ => (-3 : ℝ) • x) l t dt).doStep q x 0 1 ((), l) = .ok (q', (-2 : ℝ) • x) ((), l) := by
      intro x l
      have e1 : callSys (plainSys fun (x : Fin 1 → ℝ) _ => (-3 : ℝ) • x) (.user 0) mDxdt 0 ((q.set (.user 0) x).withWorld ()) =
          .ok () (((q.set (.user 0) x).withWorld ()).put mDxdt ((-3 : ℝ) • x) ()) := by
        simp [callSys, plainSys, Heap.withWorld, M.pure_apply]
      have e : doStep1 (ExplicitStepper.euler : ExplicitStepper ℝ).impl (plainSys fun (x : Fin 1 → ℝ) _ => (-3 : ℝ) • x) (.user 0) 0 1 ((q.set (.user 0) x).withWorld ()) =
          .ok () ((((q.set (.user 0) x).withWorld ()).put mDxdt ((-3 : ℝ) • x) ()).set (.user 0) ((-2 : ℝ) • x)) := by
        unfold doStep1
        rw [M.bind_ok e1]
        have : x + (-3 : ℝ) • x = (-2 : ℝ) • x := by funext i; simp; ring
        simp [ExplicitStepper.impl, eulerImpl, linTo, lin, StateOps.lin, lit, Heap.put, Heap.set, Heap.withWorld, mDxdt]
        simp only [neg_smul] at this
        rw [this]
      simp only [stepperObject, e]
      exact ⟨_, by simp only [Heap.set, Heap.put, Heap.withWorld, Function.update_self]; rfl⟩
    obtain ⟨q1, s1⟩ := step (fun _ => 1) ([] ++ [.obs (fun _ => 1) 0])
    obtain ⟨q2, s2⟩ := step (fun _ => 0) ([] ++ [.obs (fun _ => 0) 0])
    obtain ⟨o, o', -, -, -, h⟩ := h 1 _ _ _ _ _ _ _ _ (one_step s1) (one_step s2)
    simp only [len, Fin.sum_univ_one, Pi.sub_apply, Pi.smul_apply, smul_eq_mul] at h
    rw [show ((-2 : ℝ) * 1 - -2 * 0) ^ 2 = 2 ^ 2 by norm_num, show ((1 : ℝ) - 0) ^ 2 = 1 ^ 2 by norm_num, Real.sqrt_sq (by norm_num), Real.sqrt_sq (by norm_num)] at h
    norm_num at h

end Verif
