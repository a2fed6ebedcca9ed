import Verif.Spec.Calls
import Verif.Model.ControlledRk
import Verif.Model.Rosenbrock
import Verif.Lemmas.Interval

/-! # Counting calls through programs -/

set_option linter.unusedSectionVars false

namespace Verif
variable {K V α β : Type}

/-- The program takes `c` calls and leaves the flags and counters of the objects alone. -/
def Steady (c : ℕ) (p : StepM K V ℕ α) : Prop := ∀ h, ∃ a h', p h = .ok a h' ∧ h'.world = h.world + c ∧ h'.flag = h.flag ∧ h'.nat = h.nat

theorem Steady.takes {p : StepM K V ℕ α} {c : ℕ} (hp : Steady c p) : TakesCalls c p := fun h => by
  obtain ⟨a, h', e, w, -⟩ := hp h
  exact ⟨a, h', e, w⟩

theorem Steady.bind {p : StepM K V ℕ α} {f : α → StepM K V ℕ β} {c c' : ℕ} (hp : Steady c p) (hf : ∀ a, Steady c' (f a)) :
    Steady (c + c') (p >>= f) := by
  intro h
  obtain ⟨a, h1, e1, w1, f1, n1⟩ := hp h
  obtain ⟨b, h2, e2, w2, f2, n2⟩ := hf a h1
  exact ⟨b, h2, by rw [M.bind_ok e1, e2], by rw [w2, w1]; omega, by rw [f2, f1], by rw [n2, n1]⟩

theorem TakesCalls.bind {p : StepM K V ℕ α} {f : α → StepM K V ℕ β} {c c' : ℕ} (hp : TakesCalls c p) (hf : ∀ a, TakesCalls c' (f a)) :
    TakesCalls (c + c') (p >>= f) := by
  intro h
  obtain ⟨a, h1, e1, w1⟩ := hp h
  obtain ⟨b, h2, e2, w2⟩ := hf a h1
  exact ⟨b, h2, by rw [M.bind_ok e1, e2], by rw [w2, w1]; omega⟩

theorem Steady.congr {p : StepM K V ℕ α} {c c' : ℕ} (hp : Steady c p) (h : c = c') : Steady c' p := h ▸ hp

theorem takes_pure (a : α) : Steady 0 (pure a : StepM K V ℕ α) := fun h => ⟨a, h, rfl, rfl, rfl, rfl⟩

theorem takes_lin [StateOps K V] (dst : Loc) (l : List (K × Loc)) : Steady 0 (linTo dst l : StepM K V ℕ Unit) := fun _ => ⟨(), _, rfl, rfl, rfl, rfl⟩
theorem takes_copy (src dst : Loc) : Steady 0 (copyTo src dst : StepM K V ℕ Unit) := fun _ => ⟨(), _, rfl, rfl, rfl, rfl⟩
theorem takes_solveIn (s : V → V) (l : Loc) : Steady 0 (solveIn s l : StepM K V ℕ Unit) := fun _ => ⟨(), _, rfl, rfl, rfl, rfl⟩
theorem takes_checker (P : CtrlParams K V) (inp dxdt xerr : Loc) (dt : K) : Steady 0 (callChecker' P inp dxdt xerr dt : StepM K V ℕ K) :=
  fun _ => ⟨_, _, rfl, rfl, rfl, rfl⟩

theorem takes_sys {sys : Sys K V ℕ} (hs : Counts sys) (src dst : Loc) (t : K) : Steady 1 (callSys sys src dst t) := by
  intro h
  obtain ⟨y, e⟩ := hs (h.state src) t h.world
  exact ⟨(), h.put dst y (h.world + 1), by rw [callSys, e], rfl, rfl, rfl⟩

theorem takes_sys2 {sys : Sys2 K V ℕ} (hs : Counts2 sys) (q p dst : Loc) (t : K) : Steady 1 (callSys2 sys q p dst t) := by
  intro h
  obtain ⟨y, e⟩ := hs (h.state q) (h.state p) t h.world
  exact ⟨(), h.put dst y (h.world + 1), by rw [callSys2, e], rfl, rfl, rfl⟩

theorem takes_fun {f : V → M ℕ V} (hf : Counts1 f) (src dst : Loc) : Steady 1 (callFun f src dst : StepM K V ℕ Unit) := by
  intro h
  obtain ⟨y, e⟩ := hf (h.state src) h.world
  exact ⟨(), h.put dst y (h.world + 1), by rw [callFun, e], rfl, rfl, rfl⟩

/-- follow a program -/
macro "takes_eval" hs:term : tactic => `(tactic|
  repeat first
    | exact takes_lin _ _ | exact takes_copy _ _ | exact takes_sys $hs _ _ _ | exact takes_solveIn _ _
    | exact takes_pure _ | exact takes_checker _ _ _ _ _
    | (refine Steady.bind ?_ fun _ => ?_))

variable [Field K] [LinearOrder K] [IsStrictOrderedRing K] [StateOps K V] {sys : Sys K V ℕ}

theorem takes_ite (b : Prop) [Decidable b] {p q : StepM K V ℕ α} {c : ℕ} (hp : Steady c p) (hq : Steady c q) : Steady c (if b then p else q) := by
  split
  · exact hp
  · exact hq

theorem takes_stages (hs : Counts sys) (count : ℕ) (inp dxdt out : Loc) (t dt : K) (l : List (K × List K)) (n : ℕ) :
    Steady l.length (runStages sys count inp dxdt t out dt (n + 2) l) := by
  induction l generalizing n with
  | nil => exact takes_pure ()
  | cons st l ih =>
    refine Steady.congr (Steady.bind (c := 1) (c' := l.length) ?_ fun _ => ih (n + 1)) (by simp only [List.length_cons]; omega)
    unfold calculateStage
    rw [if_pos (by omega)]
    refine Steady.bind (takes_sys hs _ _ _) (c' := 0) fun _ => ?_
    exact takes_ite _ (takes_lin _ _) (takes_lin _ _)

theorem takes_generic (hs : Counts sys) (T : Tableau K) (hT : T.c.length = T.a.length + 1) (inp dxdt out : Loc) (t dt : K) :
    Steady T.a.length (genericRkImpl T sys inp dxdt t out dt) := by
  have hlen : T.stages.length = T.a.length + 1 := by simp [Tableau.stages, hT]
  unfold genericRkImpl
  cases hst : T.stages with
  | nil => rw [hst] at hlen; simp at hlen
  | cons st l =>
    rw [hst, List.length_cons] at hlen
    refine Steady.congr (Steady.bind (c := 0) (c' := l.length) ?_ fun _ => takes_stages hs _ _ _ _ _ _ l 0) (by omega)
    unfold calculateStage
    rw [if_neg (by omega)]
    refine Steady.bind (takes_pure _) (c := 0) (c' := 0) fun _ => ?_
    exact takes_ite _ (takes_lin _ _) (takes_lin _ _)

theorem takes_midpointLoop (hs : Counts sys) (h h2 : K) (n : ℕ) (th : K) : Steady n (midpointLoop sys h h2 n th : StepM K V ℕ Unit) := by
  induction n generalizing th with
  | zero => exact takes_pure ()
  | succ n ih =>
    unfold midpointLoop
    exact Steady.congr (Steady.bind (c := 0) (fun _ => ⟨(), _, rfl, rfl, rfl, rfl⟩) fun _ => Steady.bind (takes_sys hs _ _ _) fun _ => ih _) (by omega)

theorem takes_midpoint (hs : Counts sys) {m : ℕ} (hm : 1 ≤ m) (hm' : m < 65536) (inp dxdt out : Loc) (t dt : K) :
    Steady m (midpointImpl m sys inp dxdt t out dt) := by
  have e : (m + 65535) % 65536 = m - 1 := by omega
  unfold midpointImpl
  dsimp only
  rw [e]
  refine Steady.congr (Steady.bind (takes_lin _ _) fun _ => Steady.bind (takes_sys hs _ _ _) fun _ => Steady.bind (takes_copy _ _) fun _ =>
    Steady.bind (takes_midpointLoop hs _ _ _ _) fun _ => takes_lin _ _) (by omega)

theorem ExplicitStepper.takes (s : ExplicitStepper K) (hs : s.WellFormed) (hc : Counts sys) (inp dxdt out : Loc) (t dt : K) :
    Steady (s.evaluations - 1) (s.impl sys inp dxdt t out dt) := by
  cases s with
  | euler => exact takes_lin _ _
  | generic T => exact takes_generic hc T hs.1 _ _ _ _ _
  | rk4 => exact takes_generic hc rk4Tableau rfl _ _ _ _ _
  | cashKarp => exact takes_generic hc cashKarpTableau rfl _ _ _ _ _
  | fehlberg => exact takes_generic hc fehlbergTableau rfl _ _ _ _ _
  | rk4Classic =>
    have : Steady (0 + (1 + (0 + (1 + (0 + (1 + 0)))))) (rk4ClassicImpl sys inp dxdt t out dt) := by
      unfold rk4ClassicImpl
      takes_eval hc
    exact this
  | cashKarpClassic =>
    have : Steady (0 + (1 + (0 + (1 + (0 + (1 + (0 + (1 + (0 + (1 + 0)))))))))) (cashKarpClassicImpl sys inp dxdt t out dt) := by
      unfold cashKarpClassicImpl
      takes_eval hc
    exact this
  | midpoint m => exact takes_midpoint hc hs.1 hs.2 _ _ _ _ _

theorem ErrorStepper.takes (s : ErrorStepper K) (hs : s.WellFormed) (hc : Counts sys) (inp dxdt out : Loc) (t dt : K) (xerr : Loc) :
    Steady (s.evaluations - 1) (s.errImpl sys inp dxdt t out dt xerr) := by
  cases s with
  | generic T b2 => exact Steady.bind (c' := 0) (takes_generic hc T hs.1 _ _ _ _ _) fun _ => takes_lin _ _
  | cashKarp => exact Steady.bind (c' := 0) (takes_generic hc cashKarpTableau rfl _ _ _ _ _) fun _ => takes_lin _ _
  | fehlberg => exact Steady.bind (c' := 0) (takes_generic hc fehlbergTableau rfl _ _ _ _ _) fun _ => takes_lin _ _
  | cashKarpClassic => exact Steady.bind (c' := 0) (ExplicitStepper.takes .cashKarpClassic trivial hc _ _ _ _ _) fun _ => takes_lin _ _

theorem takes_extrapolateLoop (k j : ℕ) : Steady 0 (extrapolateLoop k j : StepM K V ℕ Unit) := by
  induction j with
  | zero => exact takes_pure ()
  | succ j ih => exact Steady.bind (takes_lin _ _) fun _ => ih

theorem takes_extrapolationLoop (hs : Counts sys) (inp dxdt out : Loc) (t dt : K) (n k : ℕ) (hk : k + n ≤ 32767) :
    Steady (n * (n + 1) + 2 * k * n) (extrapolationLoop sys inp dxdt t out dt n k) := by
  induction n generalizing k with
  | zero => exact takes_pure ()
  | succ n ih =>
    refine Steady.congr (Steady.bind (takes_midpoint hs (m := interval k) (by unfold interval; omega) (by unfold interval; omega) _ _ _ _ _) fun _ =>
      Steady.bind (c := 0) (Steady.bind (takes_extrapolateLoop _ _) fun _ => takes_lin _ _) fun _ => ih (k + 1) (by omega)) ?_
    unfold interval
    ring

theorem takes_extrapolation (hs : Counts sys) {kmax : ℕ} (hk : kmax ≤ 32766) (inp dxdt out : Loc) (t dt : K) :
    Steady ((kmax + 1) * (kmax + 2)) (extrapolationImpl kmax sys inp dxdt t out dt) := by
  refine Steady.congr (Steady.bind (takes_midpoint hs (m := interval 0) (by unfold interval; omega) (by unfold interval; omega) _ _ _ _ _) fun _ =>
    takes_extrapolationLoop hs _ _ _ _ _ kmax 1 (by omega)) ?_
  unfold interval
  ring

theorem takes_dopri5 (hs : Counts sys) (inp dxdtIn out dxdtOut : Loc) (t dt : K) : Steady 6 (dopri5Impl sys inp dxdtIn t out dxdtOut dt) := by
  have : Steady (0 + (1 + (0 + (1 + (0 + (1 + (0 + (1 + (0 + (1 + (0 + 1))))))))))) (dopri5Impl sys inp dxdtIn t out dxdtOut dt) := by
    unfold dopri5Impl
    takes_eval hs
  exact this

theorem takes_dopri5Err (hs : Counts sys) (inp dxdtIn out dxdtOut : Loc) (t dt : K) (xerr : Loc) :
    Steady 6 (dopri5ErrImpl sys inp dxdtIn t out dxdtOut dt xerr) := by
  unfold dopri5ErrImpl
  refine takes_ite _ ?_ ?_
  · exact Steady.congr (Steady.bind (takes_copy _ _) fun _ => Steady.bind (takes_dopri5 hs _ _ _ _ _ _) fun _ => takes_lin _ _) rfl
  · exact Steady.bind (takes_dopri5 hs _ _ _ _ _ _) fun _ => takes_lin _ _

/-- a Jacobian that does not call the right-hand side -/
theorem takes_jac {Mat : Type} {jac : Jac K V ℕ Mat} (hj : ∀ x t n, ∃ y, jac x t n = .ok y n) (src dfdt : Loc) (t : K) : Steady 0 (callJac jac src dfdt t) := by
  intro h
  obtain ⟨y, e⟩ := hj (h.state src) t h.world
  exact ⟨y.1, h.put dfdt y.2 h.world, by rw [callJac, e], rfl, rfl, rfl⟩

theorem takes_rosenbrock {Mat : Type} {jac : Jac K V ℕ Mat} (C : RosCoef K) (solve : K → Mat → V → V) (hs : Counts sys) (hj : ∀ x t n, ∃ y, jac x t n = .ok y n)
    (x : Loc) (t : K) (xout : Loc) (dt : K) (xerr : Loc) : Steady 6 (rosDoStep6 C solve sys jac x t xout dt xerr) := by
  have : Steady (1 + (0 + (0 + (0 + (0 + (1 + (0 + (0 + (0 + (1 + (0 + (0 + (0 + (1 + (0 + (0 + (0 + (1 + (0 + (0 + (0 + (1 + (0 + (0 + 0))))))))))))))))))))))))
      (rosDoStep6 C solve sys jac x t xout dt xerr) := by
    unfold rosDoStep6
    refine Steady.bind (takes_sys hs _ _ _) fun _ => Steady.bind (takes_jac hj _ _ _) fun _ => ?_
    takes_eval hs
  exact this

theorem takes_rknLoop {coor mom : V → M ℕ V} (hc : Counts1 coor) (hm : Counts1 mom) (qout pout : Loc) (dt : K) (l : List (K × K)) :
    Steady (2 * l.length) (rknLoop coor mom qout pout dt l) := by
  induction l with
  | nil => exact takes_pure ()
  | cons ab l ih =>
    exact Steady.congr (Steady.bind (takes_fun hc _ _) fun _ => Steady.bind (takes_lin _ _) fun _ => Steady.bind (takes_fun hm _ _) fun _ =>
      Steady.bind (takes_lin _ _) fun _ => ih) (by simp only [List.length_cons]; omega)

theorem takes_rknMomLoop {mom : V → M ℕ V} (hm : Counts1 mom) (qout pout : Loc) (dt : K) (l : List (K × K)) :
    Steady l.length (rknMomLoop mom qout pout dt l) := by
  induction l with
  | nil => exact takes_pure ()
  | cons ab l ih =>
    exact Steady.congr (Steady.bind (takes_lin _ _) fun _ => Steady.bind (takes_fun hm _ _) fun _ =>
      Steady.bind (takes_lin _ _) fun _ => ih) (by simp only [List.length_cons]; omega)

end Verif
