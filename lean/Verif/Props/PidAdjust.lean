import Verif.Spec.ExtReal
import Verif.Spec.RealOps
import Verif.Props.AdaptiveAdams
import Mathlib.Analysis.SpecialFunctions.Trigonometric.Arctan
import Mathlib.Analysis.Real.Pi.Bounds
import Mathlib.Tactic.FieldSimp
import Mathlib.Tactic.Positivity

/-!
# C25: the step adjuster of the controlled Adams stepper

The results hold in the arithmetic of real numbers with infinities and NaN, for any function `pow`, any error estimates (including NaN) and
any memory of the adjuster.
-/

namespace Verif
set_option linter.unusedSectionVars false
open XR

theorem bind_eq_ok {S α β : Type} {m : M S α} {f : α → M S β} {s s' : S} {b : β} (h : (m >>= f) s = .ok b s') :
    ∃ a s1, m s = .ok a s1 ∧ f a s1 = .ok b s' := by
  rw [M.bind_apply] at h
  cases hm : m s with
  | ok a s1 => rw [hm] at h; exact ⟨a, s1, rfl, h⟩
  | err e s1 => rw [hm] at h; cases h
  | ub => rw [hm] at h; cases h
  | div => rw [hm] at h; cases h

theorem XR.fin_div {x y : ℝ} (hy : y ≠ 0) : (fin x / fin y : XR) = fin (x / y) := by
  show (if y = 0 then _ else fin (x / y)) = _
  rw [if_neg hy]

/-- nonnegative, possibly infinite -/
def XR.NonNeg : XR → Prop
  | nan => False
  | inf s => s = false
  | fin x => 0 ≤ x

theorem XR.normInf_nonneg (pow : XR → XR → XR) (eps : XR) (l : List XR) (init : XR) (h : init.NonNeg) :
    (normInf (ops pow eps) init l).NonNeg := by
  induction l generalizing init with
  | nil => exact h
  | cons v vs ih =>
    rw [normInf]
    apply ih
    unfold NumOps.max
    split
    · rename_i hlt
      cases v with
      | nan => cases init <;> simp [ops, XR.abs, XR.lt] at hlt
      | inf s => rfl
      | fin x => exact abs_nonneg x
    · exact h

/-- the parameters of the adjuster, with the exact `atan` -/
noncomputable def xrPid (absTol relTol dtmax : XR) (coef : ℕ → XR) : PidParams XR := ⟨absTol, relTol, dtmax, coef, XR.atan⟩

/-- The unlimited ratio lies in `[1 - π/4, 1 + π/2]`, whatever the errors are. -/
theorem pidRatio_bounds (pow : XR → XR → XR) (eps absTol relTol dtmax : XR) (coef : ℕ → XR) (l : List XR) :
    ∃ q : ℝ, pidRatio (ops pow eps) (xrPid absTol relTol dtmax coef) l = fin q ∧ 1 - Real.pi / 4 ≤ q ∧ q ≤ 1 + Real.pi / 2 := by
  have hn := XR.normInf_nonneg pow eps l (lit 0) (by show (0 : ℝ) ≤ ((0 : ℤ) : ℝ); simp)
  unfold pidRatio
  generalize normInf (ops pow eps) (lit 0) l = n at hn
  have hpi := Real.pi_pos
  have finish : ∀ r : ℝ, -1 ≤ r → ∃ q : ℝ,
      (lit 1 + lit 1 * (xrPid absTol relTol dtmax coef).atan (fin r / lit 1) : XR) = fin q ∧ 1 - Real.pi / 4 ≤ q ∧ q ≤ 1 + Real.pi / 2 := by
    intro r hr
    have e1 : (fin r / lit 1 : XR) = fin r := by
      show (fin r / fin ((1 : ℤ) : ℝ) : XR) = fin r
      rw [XR.fin_div (by simp)]
      simp
    rw [e1]
    refine ⟨1 + Real.arctan r, ?_, ?_, ?_⟩
    · show (fin (((1 : ℤ) : ℝ) + ((1 : ℤ) : ℝ) * Real.arctan r) : XR) = _
      simp
    · have : Real.arctan (-1) ≤ Real.arctan r := Real.arctan_strictMono.monotone hr
      rw [Real.arctan_neg, Real.arctan_one] at this
      linarith
    · have := Real.arctan_lt_pi_div_two r
      linarith
  cases n with
  | nan => exact hn.elim
  | inf s =>
    have hs : s = false := hn
    subst hs
    have e : (lit 1 / inf false - lit 1 : XR) = fin (-1) := by
      show (fin (0 + -((1 : ℤ) : ℝ)) : XR) = _
      simp
    rw [e]
    exact finish (-1) le_rfl
  | fin x =>
    have hx : 0 ≤ x := hn
    by_cases h0 : x = 0
    · subst h0
      have e : (lit 1 / fin 0 - lit 1 : XR) = inf false := by
        show ((if (0 : ℝ) = 0 then (if ((1 : ℤ) : ℝ) = 0 then nan else inf (negative ((1 : ℤ) : ℝ))) else _ : XR) - lit 1) = _
        rw [if_pos rfl, if_neg (by simp)]
        have : negative ((1 : ℤ) : ℝ) = false := by simp [negative]
        rw [this]
        rfl
      rw [e]
      refine ⟨1 + Real.pi / 2, ?_, by linarith, le_rfl⟩
      have e2 : (inf false / lit 1 : XR) = inf false := by
        show inf (xor false (negative ((1 : ℤ) : ℝ))) = _
        simp [negative]
      rw [e2]
      show (fin (((1 : ℤ) : ℝ) + ((1 : ℤ) : ℝ) * (Real.pi / 2)) : XR) = _
      simp
    · have e : (lit 1 / fin x - lit 1 : XR) = fin (1 / x - 1) := by
        show ((fin ((1 : ℤ) : ℝ) / fin x : XR) - lit 1) = _
        rw [XR.fin_div h0]
        show (fin (((1 : ℤ) : ℝ) / x + -((1 : ℤ) : ℝ)) : XR) = _
        congr 1
        push_cast
        ring
      rw [e]
      refine finish _ ?_
      have : 0 ≤ 1 / x := by positivity
      linarith

/-- C25, the proposed step: for every history (memory `s` of the adjuster), all errors, states and derivatives, every nonzero step size `dt` and every
`dtmax > 0`, the adjuster returns `q * dt` with `0 < q ≤ 1 + π/2`; `q ≥ 1 - π/4` unless the new step is exactly `dtmax`; a forward step does not
exceed `dtmax`. -/
theorem pid_step_bounds (pow : XR → XR → XR) (eps absTol relTol : XR) (dtmax : ℝ) (hmax : 0 < dtmax) (coef : ℕ → XR) (steps : ℕ)
    (dt : ℝ) (hdt : dt ≠ 0) (err x dxdt : List XR) (s : PidState XR) :
    ∃ q : ℝ, (pidAdjust (ops pow eps) (xrPid absTol relTol (fin dtmax) coef) steps (fin dt) err x dxdt s).1 = fin (q * dt) ∧
      0 < q ∧ q ≤ 1 + Real.pi / 2 ∧ (1 - Real.pi / 4 ≤ q ∨ q * dt = dtmax) ∧ (0 < dt → q * dt ≤ dtmax) ∧
      (dt < 0 → 1 - Real.pi / 4 ≤ q) := by
  unfold pidAdjust
  dsimp only
  generalize pidErrors (ops pow eps) _ steps s.init _ _ = l
  obtain ⟨q, hq, h1, h2⟩ := pidRatio_bounds pow eps absTol relTol (fin dtmax) coef l
  rw [hq]
  have hpi4 : Real.pi < 4 := by have := Real.pi_lt_d2; linarith
  have hq0 : 0 < q := by linarith
  unfold pidLimit
  by_cases hle : dtmax ≤ q * dt
  · have : (ops pow eps).le (xrPid absTol relTol (fin dtmax) coef).dtmax (fin q * fin dt) = true := by
      show decide (dtmax ≤ q * dt) = true
      simpa using hle
    rw [if_pos this]
    have hd : 0 < dt := by
      by_contra hn
      have : q * dt ≤ 0 := mul_nonpos_of_nonneg_of_nonpos hq0.le (not_lt.mp hn)
      linarith
    refine ⟨dtmax / dt, ?_, by positivity, ?_, Or.inr (by field_simp), fun _ => le_of_eq (by field_simp), fun h => absurd h (not_lt.mpr hd.le)⟩
    · show (fin dt * (fin dtmax / fin dt) : XR) = _
      rw [XR.fin_div hdt]
      show (fin (dt * (dtmax / dt)) : XR) = _
      rw [mul_comm]
    · refine le_trans ?_ h2
      rw [div_le_iff₀ hd]
      exact hle
  · have : ¬ (ops pow eps).le (xrPid absTol relTol (fin dtmax) coef).dtmax (fin q * fin dt) = true := by
      show ¬ decide (dtmax ≤ q * dt) = true
      simpa using hle
    rw [if_neg this]
    refine ⟨q, ?_, hq0, h2, Or.inl h1, fun _ => (not_le.mp hle).le, fun _ => h1⟩
    show (fin (dt * q) : XR) = _
    rw [mul_comm]

variable {W : Type} [StateOps XR (List XR)]

/-- C25, what `try_step( system , inOut , t , dt )` reports with the default adjuster: the new step is `q * dt` with `q` as in `pid_step_bounds`, the try is
a success iff `q ≥ 9/10`; on success the time advances by exactly the step that was tried; on failure state and time are unchanged and the step
has the same sign and is at most `9/10` of the step that was tried. -/
theorem controlled_adams_try_step (N : ℕ) (norm : List XR → XR) (pow : XR → XR → XR) (eps absTol relTol : XR) (dtmax : ℝ) (hmax : 0 < dtmax)
    (coef : ℕ → XR) (sys : Sys XR (List XR) W) (x : List XR) (t dt : ℝ) (hdt : dt ≠ 0)
    (st st' : AdState XR (List XR) (CtrlMem (List XR) (PidState XR)) W) (r : CabmOut XR (List XR))
    (hrun : cabmTryStepInOut N (ops pow eps) norm (pidAdjuster (ops pow eps) (xrPid absTol relTol (fin dtmax) coef)) sys x (fin t) (fin dt) st =
      .ok r st') :
    ∃ q : ℝ, r.dt = fin (q * dt) ∧ 0 < q ∧ q ≤ 1 + Real.pi / 2 ∧ (1 - Real.pi / 4 ≤ q ∨ q * dt = dtmax) ∧ (0 < dt → q * dt ≤ dtmax) ∧
      (r.success = true ↔ 9 / 10 ≤ q) ∧
      (r.success = true → r.t = fin (t + dt)) ∧
      (r.success = false → r.out = x ∧ r.t = fin t ∧ q < 9 / 10) := by
  unfold cabmTryStepInOut at hrun
  obtain ⟨r1, w1, hrun, he⟩ := bind_eq_ok hrun
  unfold cabmTryStep at hrun
  obtain ⟨o, s1, h1, hrun⟩ := bind_eq_ok hrun
  obtain ⟨-, s2, h2, hrun⟩ := bind_eq_ok hrun
  obtain ⟨dtNew, s3, h3, hrun⟩ := bind_eq_ok hrun
  obtain ⟨q, hq, q0, q1, q2, q3, -⟩ := pid_step_bounds pow eps absTol relTol dtmax hmax coef s2.coef.eo dt hdt (s2.ext.xerr 2) o.1 s2.dxdt s2.ext.adj
  have hdtNew : dtNew = fin (q * dt) := by
    rw [← hq]
    unfold callAdjuster at h3
    injection h3 with h3 _
    exact h3.symm
  subst hdtNew
  have hcmp : ((ops pow eps).le (pidAdjuster (ops pow eps) (xrPid absTol relTol (fin dtmax) coef)).threshold (fin (q * dt) / fin dt) = true) ↔
      9 / 10 ≤ q := by
    rw [XR.fin_div hdt, mul_div_cancel_right₀ _ hdt]
    have : (pidAdjuster (ops pow eps) (xrPid absTol relTol (fin dtmax) coef)).threshold = fin (9 / 10) := by
      show (fin ((9 : ℤ) : ℝ) / fin ((10 : ℤ) : ℝ) : XR) = _
      rw [XR.fin_div (by simp)]
      simp
    rw [this]
    show decide (9 / 10 ≤ q) = true ↔ _
    simp
  split at hrun
  · rename_i hc
    have h9 := hcmp.1 hc
    obtain ⟨-, s4, h4, hrun⟩ := bind_eq_ok hrun
    injection hrun with e _
    injection he with e' _
    subst e e'
    exact ⟨q, rfl, q0, q1, q2, q3, ⟨fun _ => h9, fun _ => rfl⟩, fun _ => rfl, fun h => nomatch h⟩
  · rename_i hc
    have h9 : ¬ 9 / 10 ≤ q := fun h => hc (hcmp.2 h)
    injection hrun with e _
    injection he with e' _
    subst e e'
    exact ⟨q, rfl, q0, q1, q2, q3, ⟨fun h => (nomatch h), fun h => absurd h h9⟩, fun h => (nomatch h), fun _ => ⟨rfl, rfl, not_le.mp h9⟩⟩

/-! ## Concrete cases -/

theorem Res.Sat.returns {S α : Type} {r : Res S α} {Q : α → S → Prop} (h : r.Sat Q (fun _ _ => False) False) : ∃ a s, r = .ok a s ∧ Q a s := by
  cases r with
  | ok a s => exact ⟨a, s, rfl, h⟩
  | err e s => exact h.elim
  | ub => exact h.elim
  | div => exact h.elim

/-- a step of the controlled stepper returns if the system does -/
theorem cabmTryStepInOut_total {K V W A : Type} [Add K] [Sub K] [Mul K] [Div K] [Neg K] [IntCast K] [StateOps K V] (N : ℕ) (hN : N ≤ 13)
    (O : NumOps K) (norm : V → K) (P : AdamsAdjuster K V A) {sys : Sys K V W} (hsys : sys.Total) (x : V) (t dt : K)
    (s : AdState K V (CtrlMem V A) W) (h : AdamsInv N s.coef) : ∃ r s', cabmTryStepInOut N O norm P sys x t dt s = .ok r s' := by
  have hp := h.pos
  have hl := h.le
  obtain ⟨o, s1, h1⟩ := adamsStepImpl_total N O hsys x t dt s h
  have i1 := ((adamsStepImpl_sat N O hsys.defined x t dt s h).of_ok h1).1
  obtain ⟨s2, h2, c2⟩ := setErr_ok 2 (by omega) o.2 s1
  obtain ⟨dtNew, s3, h3, c3⟩ : ∃ dtNew s3, callAdjuster P dt o.1 s2 = .ok dtNew s3 ∧ s3.coef = s2.coef := ⟨_, _, rfl, rfl⟩
  have i3 : SameCount s.coef s3.coef := by rw [c3, c2]; exact i1
  unfold cabmTryStepInOut cabmTryStep
  simp only [bind_assoc]
  rw [M.bind_ok h1, M.bind_ok h2, M.bind_ok h3]
  split
  · have acc : ∃ s', acceptStep N O norm sys o.1 (t + dt) dtNew s3 = .ok () s' := by
      unfold acceptStep
      obtain ⟨s4, h4⟩ := ctrlCall_total hsys o.1 (t + dt) s3
      have c4 := (ctrlCall_sat hsys.defined o.1 (t + dt) s3).of_ok h4
      rw [M.bind_ok h4, M.bind_ok (m := M.get) (w' := s4) (a := s4) rfl]
      obtain ⟨C, hC, hCs⟩ := adamsUpdate_ok N s4.ext.dxdt 0 (by omega) s4.coef
      rw [M.bind_ok (onCoef_ok hC), M.bind_ok (onCoef_ok (modify_ok _ _))]
      have heo : (C.confirm N).eo = s.coef.eo := by
        show C.eo = _
        rw [hCs.eo, c4, i3.eo]
      generalize hs5 : ({ s4 with coef := C.confirm N } : AdState K V (CtrlMem V A) W) = s5
      have c5 : s5.coef = C.confirm N := by subst hs5; rfl
      rw [M.bind_ok (m := M.get) (w' := s5) (a := s5) rfl, c5, heo]
      have step : ∀ (b : Prop) [Decidable b] (i k : ℕ) (s' : AdState K V (CtrlMem V A) W), i < 4 → (b → k < 14 ∧ k < N + 2) →
          ∃ s'', (if b then estimate N dtNew i k else pure ()) s' = .ok () s'' := by
        intro b _ i k s' hi hk
        split
        · rename_i hb
          obtain ⟨_, s'', h'', _⟩ := (estimate_sat N dtNew i k hi (hk hb).1 (hk hb).2 s').returns
          exact ⟨s'', h''⟩
        · exact ⟨s', rfl⟩
      obtain ⟨_, s6, h6, _⟩ := (estimate_sat N dtNew 2 s.coef.eo (by omega) (by omega) (by omega) s5).returns
      rw [M.bind_ok h6]
      obtain ⟨s7, h7⟩ := step (1 < s.coef.eo) 1 (s.coef.eo - 1) s6 (by omega) (fun _ => by omega)
      rw [M.bind_ok h7]
      obtain ⟨s8, h8⟩ := step (2 < s.coef.eo) 0 (s.coef.eo - 2) s7 (by omega) (fun _ => by omega)
      rw [M.bind_ok h8]
      obtain ⟨s9, h9⟩ := step (s.coef.eo < N ∧ s.coef.eo < (C.confirm N).stepsInit - 1) 3 (s.coef.eo + 1) s8 (by omega) (fun _ => by omega)
      rw [M.bind_ok h9, M.bind_ok (m := M.get) (w' := s9) (a := s9) rfl, onCoef_ok (modify_ok _ _)]
      exact ⟨_, rfl⟩
    obtain ⟨s4, h4⟩ := acc
    simp only [bind_assoc]
    rw [M.bind_ok h4]
    exact ⟨_, _, rfl⟩
  · exact ⟨_, _, rfl⟩

section Examples

/-- backwards in time, with an infinite and an undefined error -/
example : ∃ q : ℝ, (pidAdjust (ops (fun _ _ => nan) (fin 0)) (xrPid (fin 1) (fin 1) (fin 1) (pidCoef .H211PI)) 3 (fin (-2))
      [inf true, nan] [fin 1, fin 2] [fin 3, nan] ⟨fun _ => [nan], fun _ => nan, 0⟩).1 = fin (q * (-2)) ∧ 0 < q ∧ q ≤ 1 + Real.pi / 2 := by
  obtain ⟨q, h1, h2, h3, -⟩ := pid_step_bounds (fun _ _ => nan) (fin 0) (fin 1) (fin 1) 1 one_pos (pidCoef .H211PI) 3 (-2) (by norm_num)
    [inf true, nan] [fin 1, fin 2] [fin 3, nan] ⟨fun _ => [nan], fun _ => nan, 0⟩
  exact ⟨q, h1, h2, h3⟩

/-- a new stepper of five steps tries a step of the system `x' = ( t , ... , t )` -/
example (mem : AdamsCoef XR (List XR)) (st : AdState XR (List XR) (CtrlMem (List XR) (PidState XR)) ℕ)
    (hst : st.coef = mem.construct 5) : ∃ (r : CabmOut XR (List XR)) (q : ℝ), r.dt = fin (q * 2) ∧ 0 < q ∧ (r.success = true ↔ 9 / 10 ≤ q) := by
  have hsys : Sys.Total (K := XR) (V := List XR) (W := ℕ) (fun x t n => .ok (x.map fun _ => t) (n + 1)) := fun x t w => ⟨_, _, rfl⟩
  obtain ⟨r, st', h⟩ := cabmTryStepInOut_total 5 (by norm_num) (ops (fun a _ => a) (fin 0)) (fun _ => nan)
    (pidAdjuster (ops (fun a _ => a) (fin 0)) (xrPid (fin 1) (fin 1) (fin 7) (pidCoef .H211PI))) hsys [fin 1, nan] (fin 3) (fin 2) st
    (by rw [hst]; exact ⟨le_rfl, by show 1 ≤ 5; omega, le_rfl, by show 1 ≤ 5 + 1; omega, rfl⟩)
  obtain ⟨q, h1, h2, -, -, -, h3, -⟩ := controlled_adams_try_step 5 (fun _ => nan) (fun a _ => a) (fin 0) (fin 1) (fin 1) 7 (by norm_num)
    (pidCoef .H211PI) _ [fin 1, nan] 3 2 (by norm_num) st st' r h
  exact ⟨r, q, h1, h2, h3⟩

end Examples

end Verif
