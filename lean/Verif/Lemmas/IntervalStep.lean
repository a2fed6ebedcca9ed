import Verif.Lemmas.IntervalDense
import Verif.Lemmas.DenseRk
import Verif.Model.Multistep
import Verif.Model.Rosenbrock
import Verif.Model.BulirschStoer
import Verif.Model.Symplectic
import Verif.Model.ImplicitEuler

/-! # The steps of the steppers stay inside -/

set_option linter.unusedSectionVars false

namespace Verif
variable {K V W α : Type} [Field K] [LinearOrder K] [IsStrictOrderedRing K] [StateOps K V] {sys sys' : Sys K V W} {t dt : K}

theorem runStages_agree (h : ∀ τ ∈ duringStep t dt, ∀ x, sys x τ = sys' x τ) (count : ℕ) (inp dxdt out : Loc) (l : List (K × List K))
    (hl : ∀ st ∈ l, 0 ≤ st.1 ∧ st.1 ≤ 1) (n : ℕ) :
    runStages sys count inp dxdt t out dt n l = runStages sys' count inp dxdt t out dt n l := by
  induction l generalizing n with
  | nil => rfl
  | cons st l ih =>
    obtain ⟨h0, h1⟩ := hl st (by simp)
    simp only [runStages, calculateStage, callSys_agree h (node_mem h0 h1), ih (fun st' hs => hl st' (by simp [hs]))]

theorem genericRkImpl_agree (h : ∀ τ ∈ duringStep t dt, ∀ x, sys x τ = sys' x τ) (T : Tableau K) (hT : ∀ c ∈ T.c, 0 ≤ c ∧ c ≤ 1)
    (inp dxdt out : Loc) : genericRkImpl T sys inp dxdt t out dt = genericRkImpl T sys' inp dxdt t out dt :=
  runStages_agree h _ _ _ _ _ (fun _ hs => hT _ (List.of_mem_zip hs).1) _

theorem midpointLoop_agree (h : ∀ τ ∈ duringStep t dt, ∀ x, sys x τ = sys' x τ) (hh h2 : K) (n : ℕ) (th : K)
    (hn : ∀ k, k < n → th + (k + 1) * hh ∈ duringStep t dt) :
    (midpointLoop sys hh h2 n th : StepM K V W Unit) = midpointLoop sys' hh h2 n th := by
  induction n generalizing th with
  | zero => rfl
  | succ n ih =>
    have h1 : th + hh ∈ duringStep t dt := by simpa using hn 0 (by omega)
    simp only [midpointLoop, callSys_agree h h1]
    rw [ih (th + hh) fun k hk => ?_]
    have := hn (k + 1) (by omega)
    push_cast at this
    convert this using 1
    ring

theorem midpointImpl_agree (h : ∀ τ ∈ duringStep t dt, ∀ x, sys x τ = sys' x τ) {m : ℕ} (hm : 1 ≤ m) (hm' : m < 65536) (inp dxdt out : Loc) :
    midpointImpl m sys inp dxdt t out dt = midpointImpl m sys' inp dxdt t out dt := by
  have hm0 : (0 : K) < m := by exact_mod_cast hm
  have key : ∀ k : ℕ, k ≤ m → t + (k : K) * (dt / (lit (m : ℤ) : K)) ∈ duringStep t dt := by
    intro k hk
    have e : t + (k : K) * (dt / (lit (m : ℤ) : K)) = t + (k : K) / m * dt := by
      simp only [lit, Int.cast_natCast]; field_simp
    rw [e]
    refine node_mem (by positivity) ?_
    rw [div_le_one hm0]
    exact_mod_cast hk
  have h1 : t + dt / (lit (m : ℤ) : K) ∈ duringStep t dt := by simpa using key 1 hm
  have e : (m + 65535) % 65536 = m - 1 := by omega
  simp only [midpointImpl, callSys_agree h h1, e]
  rw [midpointLoop_agree h _ _ (m - 1) _ fun k hk => ?_]
  have := key (k + 2) (by omega)
  push_cast at this
  convert this using 1
  ring

/-- `do_step_impl` of the explicit steppers -/
theorem ExplicitStepper.impl_agree (s : ExplicitStepper K) (hs : s.Inside) (h : ∀ τ ∈ duringStep t dt, ∀ x, sys x τ = sys' x τ)
    (inp dxdt out : Loc) : s.impl sys inp dxdt t out dt = s.impl sys' inp dxdt t out dt := by
  cases s with
  | euler => rfl
  | generic T => exact genericRkImpl_agree h T hs _ _ _
  | rk4 =>
    refine genericRkImpl_agree h _ ?_ _ _ _
    simp only [rk4Tableau, lit, frac, List.forall_mem_cons, List.not_mem_nil, false_imp_iff, implies_true, and_true]
    norm_num
  | cashKarp =>
    refine genericRkImpl_agree h _ ?_ _ _ _
    simp only [cashKarpTableau, lit, frac, List.forall_mem_cons, List.not_mem_nil, false_imp_iff, implies_true, and_true]
    norm_num
  | fehlberg =>
    refine genericRkImpl_agree h _ ?_ _ _ _
    simp only [fehlbergTableau, lit, frac, List.forall_mem_cons, List.not_mem_nil, false_imp_iff, implies_true, and_true]
    norm_num
  | rk4Classic =>
    have h1 : t + dt / lit 2 ∈ duringStep t dt := by
      have : t + dt / lit 2 = t + (1 / 2) * dt := by simp only [lit]; push_cast; ring
      rw [this]; exact node_mem (by norm_num) (by norm_num)
    simp only [ExplicitStepper.impl, rk4ClassicImpl, callSys_agree h h1, callSys_agree h (end_mem t dt)]
  | cashKarpClassic =>
    have n1 : t + dt * frac 1 5 ∈ duringStep t dt := node_mem' (by norm_num [frac, lit]) (by norm_num [frac, lit])
    have n2 : t + dt * frac 3 10 ∈ duringStep t dt := node_mem' (by norm_num [frac, lit]) (by norm_num [frac, lit])
    have n3 : t + dt * frac 3 5 ∈ duringStep t dt := node_mem' (by norm_num [frac, lit]) (by norm_num [frac, lit])
    have n4 : t + dt * lit 1 ∈ duringStep t dt := node_mem' (by norm_num [lit]) (by norm_num [lit])
    have n5 : t + dt * frac 7 8 ∈ duringStep t dt := node_mem' (by norm_num [frac, lit]) (by norm_num [frac, lit])
    simp only [ExplicitStepper.impl, cashKarpClassicImpl, callSys_agree h n1, callSys_agree h n2, callSys_agree h n3, callSys_agree h n4,
      callSys_agree h n5]
  | midpoint m => exact midpointImpl_agree h hs.1 hs.2 _ _ _

/-- `do_step_impl` of the steppers with error estimate -/
theorem ErrorStepper.errImpl_agree (s : ErrorStepper K) (hs : s.Inside) (h : ∀ τ ∈ duringStep t dt, ∀ x, sys x τ = sys' x τ)
    (inp dxdt out xerr : Loc) : s.errImpl sys inp dxdt t out dt xerr = s.errImpl sys' inp dxdt t out dt xerr := by
  cases s with
  | generic T b2 =>
    have e := ExplicitStepper.impl_agree (.generic T) hs h inp dxdt out
    simp only [ExplicitStepper.impl] at e
    simp only [ErrorStepper.errImpl, genericErrRkImpl, e]
  | cashKarp =>
    have e := ExplicitStepper.impl_agree .cashKarp trivial h inp dxdt out
    simp only [ExplicitStepper.impl, cashKarpImpl] at e
    simp only [ErrorStepper.errImpl, cashKarpErrImpl, genericErrRkImpl, e]
  | cashKarpClassic =>
    have e := ExplicitStepper.impl_agree .cashKarpClassic trivial h inp dxdt out
    simp only [ExplicitStepper.impl] at e
    simp only [ErrorStepper.errImpl, cashKarpClassicErrImpl, e]
  | fehlberg =>
    have e := ExplicitStepper.impl_agree .fehlberg trivial h inp dxdt out
    simp only [ExplicitStepper.impl, fehlbergImpl] at e
    simp only [ErrorStepper.errImpl, fehlbergErrImpl, genericErrRkImpl, e]

theorem dopri5Impl_agree (h : ∀ τ ∈ duringStep t dt, ∀ x, sys x τ = sys' x τ) (inp dxdtIn out dxdtOut : Loc) :
    dopri5Impl sys inp dxdtIn t out dxdtOut dt = dopri5Impl sys' inp dxdtIn t out dxdtOut dt := by
  have n1 : t + dt * frac 1 5 ∈ duringStep t dt := node_mem' (by norm_num [frac, lit]) (by norm_num [frac, lit])
  have n2 : t + dt * frac 3 10 ∈ duringStep t dt := node_mem' (by norm_num [frac, lit]) (by norm_num [frac, lit])
  have n3 : t + dt * frac 4 5 ∈ duringStep t dt := node_mem' (by norm_num [frac, lit]) (by norm_num [frac, lit])
  have n4 : t + dt * frac 8 9 ∈ duringStep t dt := node_mem' (by norm_num [frac, lit]) (by norm_num [frac, lit])
  simp only [dopri5Impl, callSys_agree h n1, callSys_agree h n2, callSys_agree h n3, callSys_agree h n4, callSys_agree h (end_mem t dt)]

theorem dopri5ErrImpl_agree (h : ∀ τ ∈ duringStep t dt, ∀ x, sys x τ = sys' x τ) (inp dxdtIn out dxdtOut xerr : Loc) :
    dopri5ErrImpl sys inp dxdtIn t out dxdtOut dt xerr = dopri5ErrImpl sys' inp dxdtIn t out dxdtOut dt xerr := by
  simp only [dopri5ErrImpl, dopri5Impl_agree h]

theorem extrapolationLoop_agree (h : ∀ τ ∈ duringStep t dt, ∀ x, sys x τ = sys' x τ) (inp dxdt out : Loc) (n k : ℕ) (hk : k + n < 32767) :
    extrapolationLoop sys inp dxdt t out dt n k = extrapolationLoop sys' inp dxdt t out dt n k := by
  induction n generalizing k with
  | zero => rfl
  | succ n ih =>
    simp only [extrapolationLoop]
    rw [midpointImpl_agree h (by unfold interval; omega) (by unfold interval; omega), ih (k + 1) (by omega)]

theorem extrapolationImpl_agree (h : ∀ τ ∈ duringStep t dt, ∀ x, sys x τ = sys' x τ) {kmax : ℕ} (hk : kmax < 32000) (inp dxdt out : Loc) :
    extrapolationImpl kmax sys inp dxdt t out dt = extrapolationImpl kmax sys' inp dxdt t out dt := by
  simp only [extrapolationImpl]
  rw [midpointImpl_agree h (by simp [interval]) (by simp [interval]), extrapolationLoop_agree h _ _ _ _ _ (by omega)]

/-- the parameters of an initialising stepper -/
def InitStepper.Inside : InitStepper K → Prop
  | .explicit s => s.Inside
  | .extrapolation kmax => kmax < 32000

theorem InitStepper.impl_agree (s : InitStepper K) (hs : s.Inside) (h : ∀ τ ∈ duringStep t dt, ∀ x, sys x τ = sys' x τ) (inp dxdt out : Loc) :
    s.impl sys inp dxdt t out dt = s.impl sys' inp dxdt t out dt := by
  cases s with
  | explicit s => exact s.impl_agree hs h _ _ _
  | extrapolation kmax => exact extrapolationImpl_agree h hs _ _ _

theorem InitStepper.io_agree (s : InitStepper K) (hs : s.Inside) (h : ∀ τ ∈ duringStep t dt, ∀ x, sys x τ = sys' x τ) (x dxdt : Loc) :
    s.io sys x dxdt t dt = s.io sys' x dxdt t dt := by
  cases s with
  | explicit s => exact s.impl_agree hs h _ _ _
  | extrapolation kmax => simp only [InitStepper.io, extrapolationIo, extrapolationImpl_agree h hs]

theorem abStep_agree (N : ℕ) (coef : List K) (s : InitStepper K) (hs : s.Inside) (h : ∀ τ ∈ duringStep t dt, ∀ x, sys x τ = sys' x τ)
    (resized : Bool) (inp out : Loc) : abStep N coef s sys resized inp t out dt = abStep N coef s sys' resized inp t out dt := by
  simp only [abStep, callSys_agree h (start_mem t dt), s.impl_agree hs h]

theorem abmStep_agree (N : ℕ) (cb cm : List K) (s : InitStepper K) (hs : s.Inside) (h : ∀ τ ∈ duringStep t dt, ∀ x, sys x τ = sys' x τ)
    (resized : Bool) (inp out : Loc) : abmStep N cb cm s sys resized inp t out dt = abmStep N cb cm s sys' resized inp t out dt := by
  simp only [abmStep, abStep_agree N cb s hs h, amStep, callSys_agree h (end_mem t dt)]

theorem callJac_agree {Mat : Type} {jac jac' : Jac K V W Mat} (h : ∀ x, jac x t = jac' x t) (src dst : Loc) :
    callJac jac src dst t = callJac jac' src dst t := by
  funext w; simp only [callJac, h]

theorem rosDoStep6_agree {Mat : Type} (solve : K → Mat → V → V) {jac jac' : Jac K V W Mat} (h : ∀ τ ∈ duringStep t dt, ∀ x, sys x τ = sys' x τ)
    (hj : ∀ x, jac x t = jac' x t) (x xout xerr : Loc) :
    rosDoStep6 defaultRosenbrock solve sys jac x t xout dt xerr = rosDoStep6 defaultRosenbrock solve sys' jac' x t xout dt xerr := by
  have n1 : t + (defaultRosenbrock : RosCoef K).c2 * dt ∈ duringStep t dt :=
    node_mem (by norm_num [frac, lit, defaultRosenbrock]) (by norm_num [frac, lit, defaultRosenbrock])
  have n2 : t + (defaultRosenbrock : RosCoef K).c3 * dt ∈ duringStep t dt :=
    node_mem (by norm_num [frac, lit, defaultRosenbrock]) (by norm_num [frac, lit, defaultRosenbrock])
  have n3 : t + (defaultRosenbrock : RosCoef K).c4 * dt ∈ duringStep t dt :=
    node_mem (by norm_num [frac, lit, defaultRosenbrock]) (by norm_num [frac, lit, defaultRosenbrock])
  simp only [rosDoStep6, callSys_agree h (start_mem t dt), callSys_agree h n1, callSys_agree h n2, callSys_agree h n3,
    callSys_agree h (end_mem t dt), callJac_agree hj]

theorem bsLoop_congr {S : Type} (R : BsRules K) (O : NumOps K) (c : BsCtl K) (dt : K) {s0 s0' : M S Unit} {s s' : ℕ → M S K}
    (h0 : s0 = s0') (hs : ∀ k, k < bsSize → s k = s' k) (n k : ℕ) (hopt work : ℕ → K) :
    bsLoop R O c dt s0 s n k hopt work = bsLoop R O c dt s0' s' n k hopt work := by
  subst h0
  induction n generalizing k hopt work with
  | zero => rfl
  | succ n ih =>
    simp only [bsLoop, ih]
    split
    · rfl
    · by_cases hk : k < bsSize
      · rw [hs k hk]
      · have : (chk (k < bsSize) : M S Unit) = M.ub := by unfold chk; rw [if_neg hk]
        rw [this]
        rfl

theorem bsTry4_agree (P : BsParams K V) (resized : Bool) (h : ∀ τ ∈ duringStep t dt, ∀ x, sys x τ = sys' x τ) (inp dxdt out : Loc) :
    bsTry4 P resized sys inp dxdt t out dt = bsTry4 P resized sys' inp dxdt t out dt := by
  unfold bsTry4 bsTryBody
  split
  · rfl
  · congr 1; funext s
    congr 1; funext _
    rw [bsLoop_congr bsRules P.ops (bsPrepare P resized dt s.ctl) dt
      (by rw [midpointImpl_agree h (by simp [interval]) (by simp [interval])])
      (s' := bsStage P sys' inp dxdt t out dt) fun k hk => ?_]
    unfold bsSize at hk
    unfold bsStage
    rw [midpointImpl_agree h (by unfold interval; omega) (by unfold interval; omega)]

end Verif
