import Verif.Props.ReversedControl
import Verif.Spec.SymplecticRun
import Verif.Lemmas.Symplectic

/-! # C95 for `runge_kutta_dopri5`, which keeps a derivative between the steps, its controlled stepper, and the symplectic steppers -/

namespace Verif
open SimCtx
variable {K V W : Type} [Field K] [LinearOrder K] [AddCommGroup V] [Module K V]

/-- The step of the reversed system is the same; the derivative at its end is the negated one. -/
theorem dopri5ErrStep_reversed (sys : Sys K V W) (x k : V) (t dt : K) :
    dopri5ErrStep (reversedSys sys) x (-k) (-t) (-dt) = (fun r => ((r.1.1, -r.1.2), r.2)) <$> dopri5ErrStep sys x k t dt := by
  have nil : lin ([] : List (K × V)) = 0 := rfl
  have ht : ∀ c : K, -t + -(dt * c) = -(t + dt * c) := fun c => by ring
  have ht1 : -t + -dt = -(t + dt) := by ring
  unfold dopri5ErrStep dopri5Step dopri5Error
  simp only [bind_assoc, pure_bind, map_bind, map_pure, ht, ht1, reversedSys_bind, lin_cons, nil, neg_mul, neg_smul, smul_neg, neg_neg]

/-- the trial with the negated step sizes and derivatives -/
def Trial.negFsal : Trial K (V × V) → Trial K (V × V)
  | .limited d => .limited (-d)
  | .rejected y e d => .rejected (y.1, -y.2) e (-d)
  | .accepted y e d => .accepted (y.1, -y.2) e (-d)

theorem fsalTrial_reversed {P P' : CtrlParams K V} (hP : ReversedControl P P') (sys : Sys K V W) (x k : V) (t dt : K) (hdt : dt ≠ 0) :
    fsalTrial P' dopri5ErrStep (reversedSys sys) x (-k) (-t) (-dt) = Trial.negFsal <$> fsalTrial P dopri5ErrStep sys x k t dt := by
  unfold fsalTrial
  rw [hP.limit _ hdt, dopri5ErrStep_reversed]
  by_cases hl : P.adjuster.checkStepSizeLimit dt = false
  · rw [if_pos hl, if_pos hl, map_pure, (hP.maxDt _ hl).1]
    rfl
  · rw [if_neg hl, if_neg hl, map_bind, bind_map_left]
    congr 1
    funext r
    dsimp only
    rw [hP.error, hP.gtOne, hP.errorOrder, hP.stepperOrder, (hP.decrease _ _ _ hdt).1, (hP.increase _ _ _ hdt).1]
    split <;> rfl

omit [LinearOrder K] [Module K V] in
theorem fsalTrial_newDt {P P' : CtrlParams K V} (hP : ReversedControl P P') (step : Recipe K V W ((V × V) × V)) (sys : Sys K V W) (x k : V) (t dt : K)
    (hdt : dt ≠ 0) (w : W) : (fsalTrial P step sys x k t dt w).Keeps (fun T _ => T.newDt ≠ 0) fun _ => True := by
  unfold fsalTrial
  by_cases hl : P.adjuster.checkStepSizeLimit dt = false
  · rw [if_pos hl]
    exact (hP.maxDt _ hl).2
  · rw [if_neg hl]
    refine Res.Keeps.bind (R := fun _ _ => True) ?_ fun r w _ => ?_
    · cases step sys x k t dt w <;> trivial
    · by_cases hg : P.gtOne (P.checker.error x k r.2 dt).2 = true
      · rw [if_pos hg]
        exact (hP.decrease _ _ _ hdt).2
      · rw [if_neg hg]
        exact (hP.increase _ _ _ hdt).2

variable [IsStrictOrderedRing K]

/-- how two trials are related -/
inductive FsalPair : Res (Heap K V W) (TryOut K) → Res (Heap K V W) (TryOut K) → Prop
  | ok {r r' h h'} (x : h'.state (.user 0) = h.state (.user 0)) (k : h'.state mCtrlDxdt = -h.state mCtrlDxdt) (f : h.flag mCtrlFirst = false)
      (f' : h'.flag mCtrlFirst = false) (w : h'.world = h.world) (t : r'.t = -r.t) (dt : r'.dt = -r.dt) (ne : r.dt ≠ 0) (s : r'.success = r.success) :
      FsalPair (.ok r h) (.ok r' h')
  | err {e h h'} (w : h'.world = h.world) : FsalPair (.err e h) (.err e h')
  | ub : FsalPair .ub .ub
  | div : FsalPair .div .div

omit [IsStrictOrderedRing K] in
theorem fsalTry3_pair {P P' : CtrlParams K V} (hP : ReversedControl P P') (sys : Sys K V W) (t d : K) (hd : d ≠ 0) (g g' : Heap K V W)
    (hx : g'.state (.user 0) = g.state (.user 0)) (hk : g'.state mCtrlDxdt = -g.state mCtrlDxdt) (hf : g.flag mCtrlFirst = false)
    (hf' : g'.flag mCtrlFirst = false) (hw : g'.world = g.world) :
    FsalPair (fsalTry3 P dopri5ErrImpl sys (.user 0) mCtrlDxdt t d g) (fsalTry3 P' dopri5ErrImpl (reversedSys sys) (.user 0) mCtrlDxdt (-t) (-d) g') := by
  have val : ∀ (P : CtrlParams K V) (sys : Sys K V W) (t d : K) (g : Heap K V W), Computes ctrlOwners g (fsalTry3 P dopri5ErrImpl sys (.user 0) mCtrlDxdt t d)
      (fsalTrial P dopri5ErrStep sys (g.state (.user 0)) (g.state mCtrlDxdt) t d) (Trial.out t d) (Trial.inPlaceFsal (.user 0) mCtrlDxdt) [] := by
    intro P sys t d g
    exact fsalTry3_computes P dopri5ErrImpl dopri5ErrStep sys (.user 0) mCtrlDxdt t d g (ownedBy_user _ _) (by simp [mCtrlDxdt, Loc.ownedBy])
      (fsalErr_val sys _ _ _ _ t d g (ownedBy_user _ _) (by simp [mCtrlDxdt, Loc.ownedBy]) (by simp [mXnew, Loc.ownedBy])
        (by simp [mDxdtNew, Loc.ownedBy]) (by simp [mXnew, mDxdtNew]) (by simp [mXnew, mCtrlDxdt]))
  have h1 := val P sys t d g
  have h2 := val P' (reversedSys sys) (-t) (-d) g'
  have hn := fsalTrial_newDt hP dopri5ErrStep sys (g.state (.user 0)) (g.state mCtrlDxdt) t d hd g.world
  unfold Computes at h1 h2
  rw [hx, hk, hw, fsalTrial_reversed hP _ _ _ _ _ hd, map_eq_pure_bind, M.bind_apply] at h2
  have ox : ¬ (Loc.user 0).ownedBy ctrlOwners := ownedBy_user _ 0
  have ok : ¬ mCtrlDxdt.ownedBy ctrlOwners := by simp [mCtrlDxdt, Loc.ownedBy]
  have of : ¬ mCtrlFirst.ownedBy ctrlOwners := by simp [mCtrlFirst, Loc.ownedBy]
  cases e : fsalTrial P dopri5ErrStep sys (g.state (.user 0)) (g.state mCtrlDxdt) t d g.world with
  | ok T v =>
    rw [e] at h1 h2 hn
    obtain ⟨g1, a1, b1, c1⟩ := h1
    obtain ⟨g2, a2, b2, c2⟩ := h2
    rw [a1, a2]
    have fl : ∀ (h : Heap K V W) l, (h.setAll l).flag = h.flag := by
      intro h l
      induction l generalizing h with
      | nil => rfl
      | cons a l ih => exact ih _
    refine .ok ?_ ?_ ?_ ?_ ?_ ?_ ?_ ?_ ?_
    · rw [(c1 _ ox).1, (c2 _ ox).1]
      cases T <;> simp [Heap.setAll, Trial.inPlaceFsal, Trial.negFsal, Heap.set_state_apply, mCtrlDxdt, hx]
    · rw [(c1 _ ok).1, (c2 _ ok).1]
      cases T <;> simp [Heap.setAll, Trial.inPlaceFsal, Trial.negFsal, hk]
    · rw [(c1 _ of).2.2.1, fl, hf]
    · rw [(c2 _ of).2.2.1, fl, hf']
    · rw [b1, b2]
    · cases T <;> simp [Trial.out, Trial.negFsal, add_comm]
    · cases T <;> rfl
    · cases T <;> exact hn
    · cases T <;> rfl
  | err y v =>
    rw [e] at h1 h2
    obtain ⟨g1, a1, b1, c1⟩ := h1
    obtain ⟨g2, a2, b2, c2⟩ := h2
    rw [a1, a2]
    exact .err (by rw [b1, b2])
  | ub => rw [e] at h1 h2; rw [h1, h2]; exact .ub
  | div => rw [e] at h1 h2; rw [h1, h2]; exact .div

/-- **C95**, the controlled `runge_kutta_dopri5`, with two steppers that are both new or reset, or were both used for the same steps in opposite directions. -/
theorem controlled_dopri5_reverses {P P' : CtrlParams K V} (hP : ReversedControl P P') (resized : Bool) (sys : Sys K V W) {eps : K} (heps : 0 ≤ eps) :
    ControlledReverses eps FsalMirrored (controlledObject fun x t dt => fsalTry1 P dopri5ErrImpl resized sys x t dt)
      (controlledObject fun x t dt => fsalTry1 P' dopri5ErrImpl resized (reversedSys sys) x t dt) := by
  refine controlled_reverses heps ⟨?_, by intros; exact plainCtx_mono _ _⟩
  rintro q q' x _ t _ d _ w w' ⟨hq, hw⟩ rfl rfl ⟨hd, rfl⟩
  obtain rfl : w' = mirrorWorld w := hw
  have hm : mCtrlDxdt ≠ .user 0 := by simp [mCtrlDxdt]
  have key : FsalPair (fsalTry1 P dopri5ErrImpl resized sys (.user 0) t d ((q.set (.user 0) x).withWorld w.1))
      (fsalTry1 P' dopri5ErrImpl resized (reversedSys sys) (.user 0) (-t) (-d) ((q'.set (.user 0) x).withWorld w.1)) := by
    unfold fsalTry1
    simp only [M.bind_apply, getFlag]
    have f0 : ((q.set (.user 0) x).withWorld w.1).flag mCtrlFirst = q.flag mCtrlFirst := rfl
    have f0' : ((q'.set (.user 0) x).withWorld w.1).flag mCtrlFirst = q.flag mCtrlFirst := hq.first
    rw [f0, f0']
    by_cases hc : (resized || q.flag mCtrlFirst) = true
    · rw [if_pos hc, if_pos hc]
      have e0 : ((q.set (.user 0) x).withWorld w.1).state (.user 0) = x := by simp [Heap.withWorld]
      have e0' : ((q'.set (.user 0) x).withWorld w.1).state (.user 0) = x := by simp [Heap.withWorld]
      simp only [fsalCtrlInitialize, callSys, setFlag, M.bind_apply, e0, e0', reversedSys, neg_neg]
      rw [show ((q.set (.user 0) x).withWorld w.1).world = w.1 from rfl, show ((q'.set (.user 0) x).withWorld w.1).world = w.1 from rfl]
      cases hx : sys x t w.1 with
      | err _ _ => exact .err rfl
      | ub => exact .ub
      | div => exact .div
      | ok v u =>
        refine fsalTry3_pair hP sys t d hd _ _ ?_ ?_ ?_ ?_ ?_
        · simp [Heap.putFlag, Heap.put_state_apply, mCtrlDxdt, Heap.withWorld]
        · simp [Heap.putFlag]
        · simp [Heap.putFlag]
        · simp [Heap.putFlag]
        · rfl
    · rw [if_neg hc, if_neg hc]
      have hf : q.flag mCtrlFirst = false := by simp at hc; exact hc.2
      refine fsalTry3_pair hP sys t d hd _ _ ?_ ?_ hf (hq.first.trans hf) rfl
      · simp [Heap.withWorld]
      · simpa [Heap.withWorld, Heap.set_state_apply, hm] using hq.dxdt hf
  simp only [controlledObject, mirrorWorld]
  generalize fsalTry1 P dopri5ErrImpl resized sys (.user 0) t d ((q.set (.user 0) x).withWorld w.1) = r at key
  generalize fsalTry1 P' dopri5ErrImpl resized (reversedSys sys) (.user 0) (-t) (-d) ((q'.set (.user 0) x).withWorld w.1) = r' at key
  cases key with
  | ok hx hk hf hf' hw ht hdt hne hs =>
    exact .ok ⟨⟨⟨hf'.trans hf.symm, fun _ => hk⟩, by show _ = _; simp [mirrorWorld, hw]⟩, hx.symm, ht, ⟨hne, hdt⟩, hs.symm⟩
  | err hw =>
    refine .err ?_
    show _ = _
    simp [mirrorWorld, hw]
  | ub => exact .ub
  | div => exact .div

/-- **C95**, `controlled_runge_kutta< runge_kutta_dopri5 >` with the default control. -/
theorem default_controlled_dopri5_reverses {W : Type} {d : ℕ} (τ : Tolerances) (maxDt : ℝ) (resized : Bool) (sys : Sys ℝ (Fin d → ℝ) W) {eps : ℝ} (heps : 0 ≤ eps) :
    ControlledReverses eps FsalMirrored (controlledObject fun x t dt => fsalTry1 (τ.controlUpTo d 5 4 maxDt) dopri5ErrImpl resized sys x t dt)
      (controlledObject fun x t dt => fsalTry1 (τ.controlUpTo d 5 4 (-maxDt)) dopri5ErrImpl resized (reversedSys sys) x t dt) :=
  controlled_dopri5_reverses (default_control_reversed τ d 5 4 maxDt) resized sys heps

omit [LinearOrder K] [Module K V] [IsStrictOrderedRing K] in
/-- Non-vacuity: two new or reset steppers. -/
example (q q' : Heap K V W) (h : q.flag mCtrlFirst = true) (h' : q'.flag mCtrlFirst = true) : FsalMirrored q q' :=
  ⟨h'.trans h.symm, fun hf => by rw [h] at hf; cases hf⟩

/-! ## Fixed step size -/

omit [IsStrictOrderedRing K] in
theorem dopri5Step_reversed (sys : Sys K V W) (x k : V) (t dt : K) :
    dopri5Step (reversedSys sys) x (-k) (-t) (-dt) = (fun r => ⟨-r.k3, -r.k4, -r.k5, -r.k6, r.x, -r.k7⟩) <$> dopri5Step sys x k t dt := by
  have nil : lin ([] : List (K × V)) = 0 := rfl
  have ht : ∀ c : K, -t + -(dt * c) = -(t + dt * c) := fun c => by ring
  have ht1 : -t + -dt = -(t + dt) := by ring
  unfold dopri5Step
  simp only [map_bind, map_pure, ht, ht1, reversedSys_bind, lin_cons, nil, neg_mul, neg_smul, smul_neg, neg_neg]

/-- how two steps are related -/
inductive DopriPair : Res (Heap K V W) Unit → Res (Heap K V W) Unit → Prop
  | ok {h h'} (x : h'.state (.user 0) = h.state (.user 0)) (k : h'.state mDxdt = -h.state mDxdt) (f : h'.flag mFirstCall = h.flag mFirstCall)
      (w : h'.world = h.world) : DopriPair (.ok () h) (.ok () h')
  | err {e h h'} (w : h'.world = h.world) : DopriPair (.err e h) (.err e h')
  | ub : DopriPair .ub .ub
  | div : DopriPair .div .div

omit [IsStrictOrderedRing K] in
theorem dopri5Impl_pair (sys : Sys K V W) (t d : K) (g g' : Heap K V W) (hx : g'.state (.user 0) = g.state (.user 0))
    (hk : g'.state mDxdt = -g.state mDxdt) (hf : g'.flag mFirstCall = g.flag mFirstCall) (hw : g'.world = g.world) :
    DopriPair (dopri5Impl sys (.user 0) mDxdt t (.user 0) mDxdt d g) (dopri5Impl (reversedSys sys) (.user 0) mDxdt (-t) (.user 0) mDxdt (-d) g') := by
  have ox : ¬ (Loc.user 0).ownedBy [.rk] := ownedBy_user _ 0
  have ok : ¬ mDxdt.ownedBy [.rk] := by simp [mDxdt, Loc.ownedBy]
  have of : ¬ mFirstCall.ownedBy [.rk] := by simp [mFirstCall, Loc.ownedBy]
  have ne : Loc.user 0 ≠ mDxdt := by simp [mDxdt]
  have h1 := dopri5_implements sys (.user 0) mDxdt (.user 0) mDxdt t d g ox ok ox ok ne
  have h2 := dopri5_implements (reversedSys sys) (.user 0) mDxdt (.user 0) mDxdt (-t) (-d) g' ox ok ox ok ne
  unfold Implements at h1 h2
  rw [hx, hk, hw, dopri5Step_reversed, map_eq_pure_bind, M.bind_apply] at h2
  cases e : dopri5Step sys (g.state (.user 0)) (g.state mDxdt) t d g.world with
  | ok r v =>
    rw [e] at h1 h2
    obtain ⟨g1, a1, b1, c1⟩ := h1
    obtain ⟨g2, a2, b2, c2⟩ := h2
    rw [a1, a2]
    refine .ok ?_ ?_ ?_ ?_
    · rw [(c1 _ ox).1, (c2 _ ox).1]
      simp [Heap.setAll, Heap.set_state_apply, mDxdt]
    · rw [(c1 _ ok).1, (c2 _ ok).1]
      simp [Heap.setAll]
    · rw [(c1 _ of).2.2.1, (c2 _ of).2.2.1]
      exact hf
    · rw [b1, b2]
  | err y v =>
    rw [e] at h1 h2
    obtain ⟨g1, a1, b1, c1⟩ := h1
    obtain ⟨g2, a2, b2, c2⟩ := h2
    rw [a1, a2]
    exact .err (by rw [b1, b2])
  | ub => rw [e] at h1 h2; rw [h1, h2]; exact .ub
  | div => rw [e] at h1 h2; rw [h1, h2]; exact .div

/-- **C95**, `runge_kutta_dopri5` with a fixed step size, with two steppers that are both new or reset, or were both used for the same steps in opposite
directions. -/
theorem dopri5_reverses (resized : Bool) (sys : Sys K V W) {eps : K} (heps : 0 ≤ eps) :
    BasicReverses eps DopriMirrored (stepperObject fun x t dt => fsalStep1 dopri5Impl resized sys x t dt)
      (stepperObject fun x t dt => fsalStep1 dopri5Impl resized (reversedSys sys) x t dt) := by
  refine basic_reverses heps ⟨?_, by intros; exact plainCtx_mono _ _⟩
  rintro q q' x _ t _ d _ w w' ⟨hq, hw⟩ rfl rfl ⟨-, rfl⟩
  obtain rfl : w' = mirrorWorld w := hw
  have hm : mDxdt ≠ .user 0 := by simp [mDxdt]
  have key : DopriPair (fsalStep1 dopri5Impl resized sys (.user 0) t d ((q.set (.user 0) x).withWorld w.1))
      (fsalStep1 dopri5Impl resized (reversedSys sys) (.user 0) (-t) (-d) ((q'.set (.user 0) x).withWorld w.1)) := by
    unfold fsalStep1 fsalPrepare
    simp only [M.bind_apply, getFlag]
    have f0 : ((q.set (.user 0) x).withWorld w.1).flag mFirstCall = q.flag mFirstCall := rfl
    have f0' : ((q'.set (.user 0) x).withWorld w.1).flag mFirstCall = q.flag mFirstCall := hq.first
    rw [f0, f0']
    by_cases hc : (resized || q.flag mFirstCall) = true
    · rw [if_pos hc, if_pos hc]
      have e0 : ((q.set (.user 0) x).withWorld w.1).state (.user 0) = x := by simp [Heap.withWorld]
      have e0' : ((q'.set (.user 0) x).withWorld w.1).state (.user 0) = x := by simp [Heap.withWorld]
      simp only [fsalInitialize, callSys, setFlag, M.bind_apply, e0, e0', reversedSys, neg_neg]
      rw [show ((q.set (.user 0) x).withWorld w.1).world = w.1 from rfl, show ((q'.set (.user 0) x).withWorld w.1).world = w.1 from rfl]
      cases hx : sys x t w.1 with
      | err _ _ => exact .err rfl
      | ub => exact .ub
      | div => exact .div
      | ok v u =>
        refine dopri5Impl_pair sys t d _ _ ?_ ?_ ?_ ?_
        · simp [Heap.putFlag, Heap.put_state_apply, mDxdt, Heap.withWorld]
        · simp [Heap.putFlag]
        · simp [Heap.putFlag]
        · rfl
    · rw [if_neg hc, if_neg hc]
      have hf : q.flag mFirstCall = false := by simp at hc; exact hc.2
      refine dopri5Impl_pair sys t d _ _ ?_ ?_ hq.first rfl
      · simp [Heap.withWorld]
      · simpa [Heap.withWorld, Heap.set_state_apply, hm] using hq.dxdt hf
  simp only [stepperObject, mirrorWorld]
  generalize fsalStep1 dopri5Impl resized sys (.user 0) t d ((q.set (.user 0) x).withWorld w.1) = r at key
  generalize fsalStep1 dopri5Impl resized (reversedSys sys) (.user 0) (-t) (-d) ((q'.set (.user 0) x).withWorld w.1) = r' at key
  cases key with
  | ok hx hk hf hw => exact .ok ⟨⟨⟨hf, fun _ => hk⟩, by show _ = _; simp [mirrorWorld, hw]⟩, hx.symm⟩
  | err hw =>
    refine .err ?_
    show _ = _
    simp [mirrorWorld, hw]
  | ub => exact .ub
  | div => exact .div

omit [LinearOrder K] [Module K V] [IsStrictOrderedRing K] in
/-- Non-vacuity: two new or reset steppers. -/
example (q q' : Heap K V W) (h : q.flag mFirstCall = true) (h' : q'.flag mFirstCall = true) : DopriMirrored q q' :=
  ⟨h'.trans h.symm, fun hf => by rw [h] at hf; cases hf⟩

/-! ## Symplectic steppers -/

omit [IsStrictOrderedRing K] in
theorem rknRecipe_reversed (coor mom : V → M W V) (dt : K) (coef : List (K × K)) : ∀ q p : V,
    rknRecipe (reversedFun coor) (reversedFun mom) (-dt) coef q p = rknRecipe coor mom dt coef q p := by
  have nil : lin ([] : List (K × V)) = 0 := rfl
  induction coef with
  | nil => intro q p; rfl
  | cons c cs ih =>
    intro q p
    obtain ⟨a, b⟩ := c
    simp only [rknRecipe, reversedFun, bind_assoc, pure_bind]
    congr 1
    funext dq
    simp only [lin_cons, nil, mul_neg, neg_smul, smul_neg, neg_neg]
    congr 1
    funext dp
    exact ih _ _

/-- **C95**, symplectic steppers with any coefficients, for systems given by two functions. -/
theorem symplectic_reverses (coor mom : V → M W V) (coef : List (K × K)) (hn : coef ≠ []) {eps : K} (heps : 0 ≤ eps) :
    BasicReverses eps (fun _ _ => True) (pairStepperObject (K := K) fun q p _ dt => rknDoStep coef coor mom q p dt)
      (pairStepperObject (K := K) fun q p _ dt => rknDoStep coef (reversedFun coor) (reversedFun mom) q p dt) := by
  refine basic_reverses heps ⟨?_, by intros; exact plainCtx_mono _ _⟩
  rintro q q' ⟨x, y⟩ _ t _ d _ w w' ⟨-, hw⟩ rfl rfl ⟨-, rfl⟩
  obtain rfl : w' = mirrorWorld w := hw
  have u : ∀ n, ¬ (Loc.user n).ownedBy [.symp] := fun n => by simp
  have n01 : Loc.user 0 ≠ .user 1 := by decide
  have h1 := rknStepPair_implements coor mom _ _ _ _ d (u 0) (u 1) (u 0) (u 1) n01 n01 coef hn (((q.set (.user 0) x).set (.user 1) y).withWorld w.1)
  have h2 := rknStepPair_implements (reversedFun coor) (reversedFun mom) _ _ _ _ (-d) (u 0) (u 1) (u 0) (u 1) n01 n01 coef hn
    (((q'.set (.user 0) x).set (.user 1) y).withWorld w.1)
  unfold Implements at h1 h2
  rw [rknRecipe_reversed] at h2
  have e : ∀ q : Heap K V W, (((q.set (.user 0) x).set (.user 1) y).withWorld w.1).state (.user 0) = x ∧
      (((q.set (.user 0) x).set (.user 1) y).withWorld w.1).state (.user 1) = y ∧ (((q.set (.user 0) x).set (.user 1) y).withWorld w.1).world = w.1 :=
    fun q => ⟨by simp [Heap.withWorld, Heap.set_state_apply], by simp [Heap.withWorld], rfl⟩
  rw [(e q).1, (e q).2.1, (e q).2.2] at h1
  rw [(e q').1, (e q').2.1, (e q').2.2] at h2
  simp only [pairStepperObject, mirrorWorld, rknDoStep]
  cases hr : rknRecipe coor mom d coef x y w.1 with
  | ok r v =>
    rw [hr] at h1 h2
    obtain ⟨g1, a1, b1, c1⟩ := h1
    obtain ⟨g2, a2, b2, c2⟩ := h2
    rw [a1, a2]
    refine .ok ⟨⟨trivial, ?_⟩, ?_⟩
    · show _ = _
      simp [mirrorWorld, b1, b2]
    · rw [(c1 _ (u 0)).1, (c2 _ (u 0)).1, (c1 _ (u 1)).1, (c2 _ (u 1)).1]
      simp [Heap.setAll, Heap.set_state_apply]
  | err y v =>
    rw [hr] at h1 h2
    obtain ⟨g1, a1, b1, c1⟩ := h1
    obtain ⟨g2, a2, b2, c2⟩ := h2
    rw [a1, a2]
    refine .err ?_
    show _ = _
    simp [mirrorWorld, b1, b2]
  | ub => rw [hr] at h1 h2; rw [h1, h2]; exact .ub
  | div => rw [hr] at h1 h2; rw [h1, h2]; exact .div

end Verif
