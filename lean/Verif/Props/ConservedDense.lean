import Verif.Props.Conserved
import Verif.Props.DenseFsal
import Verif.Spec.DenseRun
import Verif.Lemmas.ConservedDense

/-!
# C76 for dense output

Linear conservation laws hold in whole integrations with the dense output of `runge_kutta_dopri5`, also for the interpolated states.
-/

namespace Verif
variable {K V U W : Type} [Field K] [AddCommGroup V] [Module K V] [AddCommGroup U] [Module K U] {l : V →ₗ[K] U} {sys : Sys K V W} {c : U}

theorem dopri5Step_linear_stages (hl : InKernel l sys) (x k : V) (hk : l k = 0) (t dt : K) (w : W) :
    (dopri5Step sys x k t dt w).Keeps (fun r _ => l r.x = l x ∧ l r.k3 = 0 ∧ l r.k4 = 0 ∧ l r.k5 = 0 ∧ l r.k6 = 0 ∧ l r.k7 = 0) fun _ => True := by
  unfold dopri5Step
  refine (hl.call _ _ _).bind fun k2 w h2 => (hl.call _ _ _).bind fun k3 w h3 => (hl.call _ _ _).bind fun k4 w h4 =>
    (hl.call _ _ _).bind fun k5 w h5 => (hl.call _ _ _).bind fun k6 w h6 => (hl.call _ _ _).bind fun k7 w h7 => ?_
  exact ⟨map_lin_cons _ _ (by simp [hk, h3, h4, h5, h6]), h3, h4, h5, h6, h7⟩

/-- what an accepted trial has -/
def GoodResult (l : V →ₗ[K] U) (c : U) (r : Dopri5Result V) : Prop :=
  l r.x = c ∧ l r.k3 = 0 ∧ l r.k4 = 0 ∧ l r.k5 = 0 ∧ l r.k6 = 0 ∧ l r.k7 = 0

theorem dopri5Trial_linear (P : CtrlParams K V) (hl : InKernel l sys) (x k : V) (hx : l x = c) (hk : l k = 0) (t dt : K) (w : W) :
    (dopri5Trial P sys x k t dt w).Keeps (fun tr _ => ∀ r e d, tr = .accepted r e d → GoodResult l c r) fun _ => True := by
  unfold dopri5Trial
  refine .ite (fun _ => fun _ _ _ h => nomatch h) fun _ => ?_
  refine (dopri5Step_linear_stages hl x k hk t dt w).bind fun r w hr => ?_
  refine .ite (fun _ => fun _ _ _ h => nomatch h) fun _ => ?_
  rintro r' e d h
  cases h
  rw [hx] at hr
  exact hr

theorem dopri5Trials_linear (P : CtrlParams K V) (hl : InKernel l sys) (x k : V) (hx : l x = c) (hk : l k = 0) (t : K) : ∀ (n : ℕ) (dt : K) (w : W),
    (dopri5Trials P sys x k t n dt w).Keeps (fun tr _ => ∀ r t' d, tr = .done r t' d → GoodResult l c r) fun _ => True := by
  intro n
  induction n with
  | zero =>
    intro dt w
    unfold dopri5Trials
    split <;> first | trivial | exact fun _ _ _ h => nomatch h
  | succ n ih =>
    intro dt w
    have := dopri5Trial_linear P hl x k hx hk t dt w
    unfold dopri5Trials
    split
    · exact ih _ _
    · exact ih _ _
    · next e =>
      rw [e] at this
      rintro r' t' d h
      cases h
      exact this _ _ _ rfl
    · exact fun _ _ _ h => nomatch h
    · trivial
    · trivial

/-- The current state and, if it is known already, the derivative there. -/
def DenseNow (l : V →ₗ[K] U) (c : U) (h : Heap K V W) : Prop :=
  l (currentState h) = c ∧ (h.flag mDerivInit = true → l (h.state (getCurrentDeriv (h.flag mCurX1))) = 0)

/-- Also the last step is as it should be. -/
def DenseReady (l : V →ₗ[K] U) (c : U) (h : Heap K V W) : Prop :=
  DenseNow l c h ∧ h.flag mDerivInit = true ∧ l (previousState h) = c ∧ l (h.state (getOldDeriv (h.flag mCurX1))) = 0 ∧
    l (h.state (mK 3)) = 0 ∧ l (h.state (mK 4)) = 0 ∧ l (h.state (mK 5)) = 0 ∧ l (h.state (mK 6)) = 0

theorem fsalDenseDoStep_linear (P : CtrlParams K V) (hl : InKernel l sys) (h : Heap K V W) (hq : DenseNow l c h) :
    (fsalDenseDoStep P dopri5ErrImpl sys h).Keeps (fun _ h' => DenseReady l c h') fun _ => True := by
  let a : DopriDense K V W := ⟨currentState h, currentTime h, currentTimeStep h,
    if h.flag mDerivInit = true then some (h.state (getCurrentDeriv (h.flag mCurX1))) else none, none, fun n => h.state (.user n), h.world⟩
  have hR : a.InHeap h := by
    refine ⟨rfl, rfl, rfl, ?_, ?_, (fun _ e => nomatch e), fun _ => rfl, rfl⟩
    · show _ = Option.isSome (if _ then _ else _)
      cases h.flag mDerivInit <;> rfl
    · intro k e
      change (if _ then _ else _) = _ at e
      split at e
      · cases e; rfl
      · cases e
  have hstep : (a.step P sys).Keeps (fun _ a' => ∃ s, a'.last = some s ∧ l a'.x = c ∧ l s.xOld = c ∧ l s.kOld = 0 ∧ l s.k3 = 0 ∧ l s.k4 = 0 ∧ l s.k5 = 0 ∧
      l s.k6 = 0 ∧ l s.k7 = 0) fun _ => True := by
    have hd : (a.deriv sys a.world).Keeps (fun k _ => l k = 0) fun _ => True := by
      unfold DopriDense.deriv
      show Res.Keeps ((match (if _ then some _ else none) with | some k => pure k | none => _ : M W V) _) _ _
      split
      · next k e =>
        split at e
        · next hf => cases e; exact hq.2 hf
        · cases e
      · exact hl.call _ _ _
    unfold DopriDense.step
    cases e1 : a.deriv sys a.world with
    | err _ _ => trivial
    | ub => trivial
    | div => trivial
    | ok k w =>
      rw [e1] at hd
      have ht := dopri5Trials_linear P hl a.x k hq.1 hd a.t defaultMaxSteps a.dt w
      dsimp only
      cases e2 : dopri5Trials P sys a.x k a.t defaultMaxSteps a.dt w with
      | err _ _ => trivial
      | ub => trivial
      | div => trivial
      | ok tr w' =>
        rw [e2] at ht
        cases tr with
        | threw e t dt => trivial
        | done r t dt =>
          obtain ⟨h1, h3, h4, h5, h6, h7⟩ := ht r t dt rfl
          exact ⟨_, rfl, h1, hq.1, hd, h3, h4, h5, h6, h7⟩
  have hs := dopri_dense_do_step P sys h a hR
  cases e1 : fsalDenseDoStep P dopri5ErrImpl sys h with
  | err _ _ => trivial
  | ub => trivial
  | div => trivial
  | ok r h' =>
    cases e2 : a.step P sys with
    | err _ _ => rw [e1, e2] at hs; exact hs.elim
    | ub => rw [e1, e2] at hs; exact hs.elim
    | div => rw [e1, e2] at hs; exact hs.elim
    | ok r' a' =>
      rw [e1, e2] at hs
      rw [e2] at hstep
      obtain ⟨-, R⟩ := hs
      obtain ⟨s, hlast, g1, g2, g3, g4, g5, g6, g7, g8⟩ := hstep
      obtain ⟨l1, l2, l3, l4, l5, l6, l7, l8⟩ := R.last s hlast
      refine ⟨⟨by rw [R.x]; exact g1, fun _ => by rw [R.k _ l8]; exact g8⟩, by rw [R.flag, l8]; rfl, ?_, ?_, ?_, ?_, ?_, ?_⟩
      · rw [l1]; exact g2
      · rw [l3]; exact g3
      · rw [l4]; exact g4
      · rw [l5]; exact g5
      · rw [l6]; exact g6
      · rw [l7]; exact g7

theorem fsalDenseCalcState_linear (h : Heap K V W) (hq : DenseReady l c h) (t : K) :
    ∃ h', fsalDenseCalcState t (.user 0) h = .ok () h' ∧ l (h'.state (.user 0)) = c := by
  refine ⟨_, rfl, ?_⟩
  obtain ⟨⟨h1, h2⟩, h3, h4, h5, h6, h7, h8, h9⟩ := hq
  simp only [Heap.set_state_self]
  rw [List.map_cons, map_lin_cons]
  · exact h4
  · intro p hp
    simp only [dopri5DenseB, List.map, List.zip, List.zipWith, List.mem_cons, List.not_mem_nil, or_false] at hp
    rcases hp with rfl | rfl | rfl | rfl | rfl | rfl
    · exact h5
    · exact h6
    · exact h7
    · exact h8
    · exact h9
    · exact h2 h3

theorem denseObject_keeps (P : CtrlParams K V) (hl : InKernel l sys) : DenseKeeps (denseObject P sys) (DenseNow l c) (DenseReady l c) fun x => l x = c where
  init q x t dt w hx := by
    refine ⟨⟨?_, fun h => ?_⟩, ?_, ?_, rfl⟩
    · rw [← hx]
      simp [currentState, Heap.putFlag, Heap.putNum, Heap.withWorld, mCurX1, mDerivInit]
    · simp [Heap.putFlag] at h
    · simp [denseObject, currentTime, Heap.putNum_num, mT, mDt]
    · simp [denseObject, currentTimeStep, Heap.putNum_num, mT, mDt]
  step q w hq := by
    have := fsalDenseDoStep_linear (c := c) P hl (q.withWorld w.1) hq
    simp only [denseObject]
    cases e : fsalDenseDoStep P dopri5ErrImpl sys (q.withWorld w.1) with
    | err _ _ => exact rfl
    | ub => trivial
    | div => trivial
    | ok r h' =>
      rw [e] at this
      exact ⟨this, rfl⟩
  interp q t w hq := by
    obtain ⟨h', e, hv⟩ := fsalDenseCalcState_linear (q.withWorld w.1) hq t
    simp only [denseObject, e]
    exact ⟨hv, rfl⟩
  ready q h := h.1
  cur q h := h.1

/-- **C76**, dense output of the controlled `runge_kutta_dopri5`, whatever the stepper was used for before. -/
theorem dense_dopri5_linear_conserved (P : CtrlParams K V) (hl : InKernel l sys) (c : U) : DenseConserves (denseObject P sys) fun x => l x = c :=
  dense_conserves (denseObject_keeps P hl)

/-! ## The hypotheses can be met -/

example (k : ℝ → ℝ) (c : ℝ) (P : CtrlParams ℝ (ℝ × ℝ)) :
    DenseConserves (denseObject P (countSys fun (x : ℝ × ℝ) t => (-(k t * x.1 * x.2), k t * x.1 * x.2))) fun x => totalAmount x = c :=
  dense_dopri5_linear_conserved P (reaction_inKernel k) c

/-- `integrate_const` from 0 to 10 with step size 1: the conditions on the times are met. -/
example : let A := TimeArith.exact ℚ (1 / 1000)
    A.lessWithSign 0 0 1 = false ∧ A.lessEqWithSign (A.add 0 1) 0 1 = false ∧ A.lessEqWithSign 0 (A.add 0 1) 1 = true ∧ A.lessWithSign 0 10 1 = true ∧
      A.lessEqWithSign (A.add (A.add 0 1) 1) 10 1 = true := by
  refine ⟨?_, ?_, ?_, ?_, ?_⟩ <;> simp [TimeArith.lessWithSign, TimeArith.lessEqWithSign, TimeArith.exact] <;> norm_num

end Verif
