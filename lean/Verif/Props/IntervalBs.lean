import Verif.Props.IntervalRos
import Verif.Lemmas.IntervalBs

/-!
# C83 for `bulirsch_stoer` in the integrate functions

The integrate functions with a `bulirsch_stoer` object use the system function only between start and end of the integration, whatever the error
estimates are and in whatever state the object is, for exact arithmetic.
-/

namespace Verif

variable {V W U : Type} [StateOps ℝ V]

/-- **C83, integrate functions with `bulirsch_stoer`**, with any error checker, any behaviour of the resizer, and in every state a `bulirsch_stoer`
object can have (`BsCtl.Valid`).  The limit of the step size is absent or points in the direction of integration. -/
theorem integrate_bulirsch_stoer_inside (resizer : U → Bool × U) (P : BsParams ℝ V) (hO : P.ops = realOps 0)
    (obs : Observer (W × Log V ℝ) V ℝ) (eps : ℝ) (heps : 0 ≤ eps) (q : BsState ℝ V W × U) (hq : q.1.ctl.Valid) (x : V) (t0 t1 dt : ℝ) (hdt : dt ≠ 0)
    (hm : P.maxDt = 0 ∨ SameDir dt P.maxDt) (n : ℕ) (times : List ℝ) :
    let st := fun sys : Sys ℝ V W => bsObject resizer fun resized x t dt => bsTry1 P resized sys x t dt
    UsesOnly (during eps dt t0 (t0 + n * dt)) (fun sys => integrateNStepsControlled (TimeArith.exact ℝ eps) (st sys) obs q x t0 dt n) ∧
    UsesOnly (during (2 * eps) dt t0 t1) (fun sys => integrateConstControlled (TimeArith.exact ℝ eps) (st sys) obs q x t0 t1 dt) ∧
    UsesOnly (during eps dt t0 t1) (fun sys => integrateAdaptiveControlled (TimeArith.exact ℝ eps) (st sys) obs q x t0 t1 dt) ∧
    UsesOnly (duringTimes times) (fun sys => integrateTimesControlled (TimeArith.exact ℝ eps) (st sys) obs q x times dt) := by
  intro st
  have key := integrate_tries_inside (Sy := Sys ℝ V W) (fun I a b => ∀ t ∈ I, ∀ x, a x t = b x t) st ?_ dt hdt
    (Ok := fun q => q.1.ctl.Valid) ?_ obs eps heps q hq x t0 t1 n times
  · exact ⟨fun a b h => (key a b).1 h, fun a b h => (key a b).2.1 h, fun a b h => (key a b).2.2.1 h, fun a b h => (key a b).2.2.2 h⟩
  · intro I a b hab q x t d hs
    have : bsTry1 P (resizer q.2).1 a (.user 0) t d = bsTry1 P (resizer q.2).1 b (.user 0) t d :=
      (try_step_bulirsch_stoer_inside P (resizer q.2).1 (.user 0) (.user 1) (.user 2) t d).1 a b fun τ hτ => hab τ (hs hτ)
    simp only [st, bsObject, this]
  · intro a q x t d w r w' hv e1 hd
    simp only [st, bsObject] at e1
    cases hc : bsTry1 P (resizer q.2).1 a (.user 0) t d ⟨q.1.ctl, (q.1.heap.set (.user 0) x).withWorld w.1⟩ with
    | ok r' s' =>
      rw [hc] at e1
      cases e1
      exact bsTry1_forward (s := ⟨q.1.ctl, (q.1.heap.set (.user 0) x).withWorld w.1⟩) (s' := s') P hO (resizer q.2).1 a (.user 0) t d dt hv hm hd hc
    | err _ _ => rw [hc] at e1; cases e1
    | ub => rw [hc] at e1; cases e1
    | div => rw [hc] at e1; cases e1

/-- A concrete case: `x' = √(3 - t)`, which is undefined beyond `t = 3`, integrated up to this point by a new `bulirsch_stoer` object, with any
error checker: the exception is never met. -/
example (checker : ErrorChecker ℝ ℝ) (h : Heap ℝ ℝ Unit) :
    let P : BsParams ℝ ℝ := ⟨realOps 0, checker, 0⟩
    let st := fun sys : Sys ℝ ℝ Unit => bsObject (fun u : Unit => (false, u)) fun resized x t dt => bsTry1 P resized sys x t dt
    let sys : Sys ℝ ℝ Unit := fun _ t => pure (Real.sqrt (3 - t))
    let bad : Sys ℝ ℝ Unit := fun x t => if 3 < t then M.throw (.user 7) else sys x t
    integrateAdaptiveControlled (TimeArith.exact ℝ 0) (st bad) recordObserver (⟨BsCtl.construct 0, h⟩, ()) 5 1 3 (1 / 10) =
      integrateAdaptiveControlled (TimeArith.exact ℝ 0) (st sys) recordObserver (⟨BsCtl.construct 0, h⟩, ()) 5 1 3 (1 / 10) := by
  intro P st sys bad
  refine (integrate_bulirsch_stoer_inside (fun u : Unit => (false, u)) P rfl recordObserver 0 le_rfl (⟨BsCtl.construct 0, h⟩, ())
    ⟨by norm_num [BsCtl.construct], by norm_num [BsCtl.construct], fun _ => rfl⟩ 5 1 3 (1 / 10) (by norm_num) (Or.inl rfl) 0 []).2.2.1 bad sys ?_
  intro t ht x
  unfold during at ht
  rw [if_pos (by norm_num)] at ht
  simp only [bad]
  rw [if_neg (by have := ht.2; linarith)]

end Verif
