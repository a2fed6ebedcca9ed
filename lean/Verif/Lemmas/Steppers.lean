import Verif.Lemmas.Midpoint
import Verif.Spec.Steppers
import Mathlib.Tactic.IntervalCases

/-! Every explicit stepper implements its recipe, and the `do_step` overloads of the base classes. -/

set_option linter.unusedSectionVars false

namespace Verif
variable {K V W : Type} [Add K] [Sub K] [Mul K] [Div K] [IntCast K] [Neg K] [StateOps K V]

/-- The members of the steppers (not of their base class). -/
abbrev implOwners : List Owner := [.rk, .midp]
/-- The members of the steppers and of their base class. -/
abbrev stepOwners : List Owner := [.rk, .midp, .base]

theorem not_owned_sub {l : Loc} {os os' : List Owner} (hl : ¬ l.ownedBy os') (h : ∀ o ∈ os, o ∈ os') :
    ¬ l.ownedBy os := by
  intro hl'
  cases l with
  | user n => exact hl'
  | priv o i => exact hl (h o hl')

theorem rk4Tableau_wf : (rk4Tableau : Tableau K).WellFormed := by
  refine ⟨rfl, rfl, fun i hi => ?_⟩
  simp only [rk4Tableau, List.length_cons, List.length_nil] at hi ⊢
  interval_cases i <;> rfl
theorem cashKarpTableau_wf : (cashKarpTableau : Tableau K).WellFormed := by
  refine ⟨rfl, rfl, fun i hi => ?_⟩
  simp only [cashKarpTableau, List.length_cons, List.length_nil] at hi ⊢
  interval_cases i <;> rfl
theorem fehlbergTableau_wf : (fehlbergTableau : Tableau K).WellFormed := by
  refine ⟨rfl, rfl, fun i hi => ?_⟩
  simp only [fehlbergTableau, List.length_cons, List.length_nil] at hi ⊢
  interval_cases i <;> rfl

theorem impl_implements (s : ExplicitStepper K) (hs : s.WellFormed) (sys : Sys K V W) (inp dxdt out : Loc)
    (t dt : K) (h : Heap K V W) (hinp : ¬ inp.ownedBy implOwners) (hdxdt : ¬ dxdt.ownedBy implOwners) :
    Implements implOwners h (s.impl sys inp dxdt t out dt)
      (s.recipe sys (h.state inp) (h.state dxdt) t dt) (fun v => [(out, v)]) [] := by
  have a1 : ¬ inp.ownedBy [.rk] := not_owned_sub hinp (by simp)
  have a2 : ¬ dxdt.ownedBy [.rk] := not_owned_sub hdxdt (by simp)
  have a3 : ¬ inp.ownedBy [.midp] := not_owned_sub hinp (by simp)
  cases s with
  | euler => exact (euler_implements sys inp dxdt out t dt h).mono_own (by simp)
  | generic T => exact (genericRk_implements T hs sys inp dxdt out t dt h a1 a2).mono_own (by simp)
  | rk4 => exact (genericRk_implements _ rk4Tableau_wf sys inp dxdt out t dt h a1 a2).mono_own (by simp)
  | rk4Classic => exact (rk4Classic_implements sys inp dxdt out t dt h a1 a2).mono_own (by simp)
  | cashKarp => exact (genericRk_implements _ cashKarpTableau_wf sys inp dxdt out t dt h a1 a2).mono_own (by simp)
  | cashKarpClassic => exact (cashKarpClassic_implements sys inp dxdt out t dt h a1 a2).mono_own (by simp)
  | fehlberg => exact (genericRk_implements _ fehlbergTableau_wf sys inp dxdt out t dt h a1 a2).mono_own (by simp)
  | midpoint m => exact (midpoint_implements m hs.1 hs.2 sys inp dxdt out t dt h a3).mono_own (by simp)

theorem errImpl_implements (s : ErrorStepper K) (hs : s.WellFormed) (sys : Sys K V W) (inp dxdt out xerr : Loc)
    (t dt : K) (h : Heap K V W) (hinp : ¬ inp.ownedBy [.rk]) (hdxdt : ¬ dxdt.ownedBy [.rk])
    (hout : ¬ out.ownedBy [.rk]) (hod : dxdt ≠ out) :
    Implements [.rk] h (s.errImpl sys inp dxdt t out dt xerr)
      (s.errRecipe sys (h.state inp) (h.state dxdt) t dt) (fun r => [(out, r.1), (xerr, r.2)]) [] := by
  cases s with
  | generic T b2 => exact genericErrRk_implements T hs b2 sys inp dxdt out xerr t dt h hinp hdxdt hout hod
  | cashKarp => exact genericErrRk_implements _ cashKarpTableau_wf _ sys inp dxdt out xerr t dt h hinp hdxdt hout hod
  | cashKarpClassic => exact cashKarpClassicErr_implements sys inp dxdt out xerr t dt h hinp hdxdt hout hod
  | fehlberg => exact genericErrRk_implements _ fehlbergTableau_wf _ sys inp dxdt out xerr t dt h hinp hdxdt hout hod

theorem doStep3_implements (s : ExplicitStepper K) (hs : s.WellFormed) (sys : Sys K V W) (inp out : Loc)
    (t dt : K) (h : Heap K V W) (hinp : ¬ inp.ownedBy stepOwners) :
    Implements stepOwners h (doStep3 s.impl sys inp t out dt)
      (sys (h.state inp) t >>= fun k => s.recipe sys (h.state inp) k t dt) (fun v => [(out, v)]) [] := by
  have ne : inp ≠ mDxdt := ne_priv hinp (by simp) _
  unfold doStep3
  refine Implements.sys (by simp [mDxdt, Loc.ownedBy]) rfl fun k w => ?_
  have := (impl_implements s hs sys inp mDxdt out t dt (h.put mDxdt k w)
    (not_owned_sub hinp (by simp)) (by simp [mDxdt, Loc.ownedBy])).mono_own (os' := stepOwners) (by simp)
  rwa [Heap.put_state_ne _ _ _ ne, Heap.put_state_self] at this

theorem doStep1_implements (s : ExplicitStepper K) (hs : s.WellFormed) (sys : Sys K V W) (x : Loc)
    (t dt : K) (h : Heap K V W) (hx : ¬ x.ownedBy stepOwners) :
    Implements stepOwners h (doStep1 s.impl sys x t dt)
      (sys (h.state x) t >>= fun k => s.recipe sys (h.state x) k t dt) (fun v => [(x, v)]) [] :=
  doStep3_implements s hs sys x x t dt h hx

theorem doStep7_implements (s : ErrorStepper K) (hs : s.WellFormed) (sys : Sys K V W) (inp out xerr : Loc)
    (t dt : K) (h : Heap K V W) (hinp : ¬ inp.ownedBy stepOwners) (hout : ¬ out.ownedBy stepOwners) :
    Implements stepOwners h (doStep7 s.errImpl sys inp t out dt xerr)
      (sys (h.state inp) t >>= fun k => s.errRecipe sys (h.state inp) k t dt)
      (fun r => [(out, r.1), (xerr, r.2)]) [] := by
  have ne : inp ≠ mDxdt := ne_priv hinp (by simp) _
  unfold doStep7
  refine Implements.sys (by simp [mDxdt, Loc.ownedBy]) rfl fun k w => ?_
  have := (errImpl_implements s hs sys inp mDxdt out xerr t dt (h.put mDxdt k w)
    (not_owned_sub hinp (by simp)) (by simp [mDxdt, Loc.ownedBy]) (not_owned_sub hout (by simp))
    (ne_priv hout (by simp) _).symm).mono_own (os' := stepOwners) (by simp)
  rwa [Heap.put_state_ne _ _ _ ne, Heap.put_state_self] at this

theorem doStep5_implements (s : ErrorStepper K) (hs : s.WellFormed) (sys : Sys K V W) (x xerr : Loc)
    (t dt : K) (h : Heap K V W) (hx : ¬ x.ownedBy stepOwners) :
    Implements stepOwners h (doStep5 s.errImpl sys x t dt xerr)
      (sys (h.state x) t >>= fun k => s.errRecipe sys (h.state x) k t dt)
      (fun r => [(x, r.1), (xerr, r.2)]) [] :=
  doStep7_implements s hs sys x x xerr t dt h hx hx

/-- The recipe with error estimate computes the same step as the recipe without. -/
theorem errRecipe_fst (s : ErrorStepper K) (sys : Sys K V W) (x k1 : V) (t dt : K) :
    (s.errRecipe sys x k1 t dt >>= fun r => pure r.1) = s.toExplicit.recipe sys x k1 t dt := by
  cases s <;>
    simp only [ErrorStepper.errRecipe, ErrorStepper.toExplicit, ExplicitStepper.recipe, rkErrStep, rkStep,
      cashKarpClassicErrStep, cashKarpClassicStep, bind_assoc, pure_bind]

theorem toExplicit_wf (s : ErrorStepper K) (hs : s.WellFormed) : s.toExplicit.WellFormed := by
  cases s <;> first | exact hs | trivial


end Verif
