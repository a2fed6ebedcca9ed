import Verif.Lemmas.IntervalStep

/-! # Stepper objects whose steps stay inside -/

set_option linter.unusedSectionVars false

namespace Verif
variable {K V W α : Type} [Field K] [LinearOrder K] [IsStrictOrderedRing K] [StateOps K V] {sys sys' : Sys K V W} {t dt : K}

/-- what `try_step` returns -/
def TryDecides (P : CtrlParams K V) (t dt : K) (r : TryOut K) : Prop :=
  (P.adjuster.checkStepSizeLimit dt = false ∧ r = ⟨false, t, P.adjuster.maxDt⟩) ∨ ∃ err, r = decide' P t dt err

theorem TryDecides.forward {P : CtrlParams K V} {d : K} {r : TryOut K} (h : TryDecides P t dt r) (hP : P.Sensible d) (hd : SameDir d dt) :
    SameDir d r.dt ∧ (r.success = true → r.t = t + dt) ∧ (r.success = false → r.t = t ∧ |r.dt| ≤ |dt|) := by
  rcases h with ⟨h1, rfl⟩ | ⟨err, rfl⟩
  · obtain ⟨h2, h3⟩ := hP.limit dt hd h1
    exact ⟨h2, by simp, fun _ => ⟨rfl, h3⟩⟩
  · unfold decide'
    split
    · rename_i hg
      obtain ⟨h2, h3⟩ := hP.decrease dt err hd hg
      exact ⟨h2, by simp, fun _ => ⟨rfl, h3⟩⟩
    · rename_i hg
      exact ⟨hP.increase dt err hd (by simpa using hg), fun _ => rfl, by simp⟩

theorem tryStep4_result {P : CtrlParams K V} {impl : ErrStepImpl K V W} {inp dxdt out : Loc} {h h' : Heap K V W} {r : TryOut K}
    (e : tryStep4 P impl sys inp dxdt t out dt h = .ok r h') : TryDecides P t dt r := by
  unfold tryStep4 at e
  by_cases hc : P.adjuster.checkStepSizeLimit dt = false
  · simp only [hc, Bool.not_false, if_true] at e
    cases e
    exact Or.inl ⟨hc, rfl⟩
  · have hc' : P.adjuster.checkStepSizeLimit dt = true := by simpa using hc
    simp only [hc', Bool.not_true, Bool.false_eq_true, if_false, pure_bind] at e
    obtain ⟨_, _, -, e⟩ := bind_ok_inv e
    obtain ⟨err, _, -, e⟩ := bind_ok_inv e
    cases e
    exact Or.inr ⟨err, rfl⟩

theorem fsalTry4_result {P : CtrlParams K V} {impl : FsalErrImpl K V W} {inp dxdtIn out dxdtOut : Loc} {h h' : Heap K V W} {r : TryOut K}
    (e : fsalTry4 P impl sys inp dxdtIn t out dxdtOut dt h = .ok r h') : TryDecides P t dt r := by
  unfold fsalTry4 at e
  by_cases hc : P.adjuster.checkStepSizeLimit dt = false
  · simp only [hc, Bool.not_false, if_true] at e
    cases e
    exact Or.inl ⟨hc, rfl⟩
  · have hc' : P.adjuster.checkStepSizeLimit dt = true := by simpa using hc
    simp only [hc', Bool.not_true, Bool.false_eq_true, if_false, pure_bind] at e
    obtain ⟨_, _, -, e⟩ := bind_ok_inv e
    obtain ⟨err, _, -, e⟩ := bind_ok_inv e
    cases e
    exact Or.inr ⟨err, rfl⟩

theorem tryStep1_result {P : CtrlParams K V} {impl : ErrStepImpl K V W} {x : Loc} {h h' : Heap K V W} {r : TryOut K}
    (e : tryStep1 P impl sys x t dt h = .ok r h') : TryDecides P t dt r := by
  obtain ⟨_, _, -, e⟩ := bind_ok_inv e
  obtain ⟨r', h₁, e1, e⟩ := bind_ok_inv e
  have : r' = r := by
    split at e
    · obtain ⟨_, _, -, e⟩ := bind_ok_inv e; cases e; rfl
    · cases e; rfl
  exact this ▸ tryStep4_result e1

theorem fsalTry1_result {P : CtrlParams K V} {impl : FsalErrImpl K V W} {resized : Bool} {x : Loc} {h h' : Heap K V W} {r : TryOut K}
    (e : fsalTry1 P impl resized sys x t dt h = .ok r h') : TryDecides P t dt r := by
  unfold fsalTry1 at e
  have key : ∀ {h₁}, fsalTry3 P impl sys x mCtrlDxdt t dt h₁ = .ok r h' → TryDecides P t dt r := by
    intro h₁ e
    obtain ⟨r', h₁, e1, e⟩ := bind_ok_inv e
    have : r' = r := by
      split at e
      · obtain ⟨_, _, -, e⟩ := bind_ok_inv e
        obtain ⟨_, _, -, e⟩ := bind_ok_inv e
        cases e; rfl
      · cases e; rfl
    exact this ▸ fsalTry4_result e1
  obtain ⟨f, _, -, e⟩ := bind_ok_inv e
  split at e
  · obtain ⟨_, _, -, e⟩ := bind_ok_inv e
    exact key e
  · exact key e

theorem tryStep4_agree (P : CtrlParams K V) (s : ErrorStepper K) (hs : s.Inside) (h : ∀ τ ∈ duringStep t dt, ∀ x, sys x τ = sys' x τ)
    (inp dxdt out : Loc) : tryStep4 P s.errImpl sys inp dxdt t out dt = tryStep4 P s.errImpl sys' inp dxdt t out dt := by
  simp only [tryStep4, doStep8, s.errImpl_agree hs h]

theorem fsalTry4_agree (P : CtrlParams K V) (h : ∀ τ ∈ duringStep t dt, ∀ x, sys x τ = sys' x τ)
    (inp dxdtIn out dxdtOut : Loc) :
    fsalTry4 P dopri5ErrImpl sys inp dxdtIn t out dxdtOut dt = fsalTry4 P dopri5ErrImpl sys' inp dxdtIn t out dxdtOut dt := by
  simp only [fsalTry4, fsalStep8, dopri5ErrImpl_agree h]

theorem tryStep1_agree (P : CtrlParams K V) (s : ErrorStepper K) (hs : s.Inside) (h : ∀ τ ∈ duringStep t dt, ∀ x, sys x τ = sys' x τ)
    (x : Loc) : tryStep1 P s.errImpl sys x t dt = tryStep1 P s.errImpl sys' x t dt := by
  simp only [tryStep1, tryStep2, callSys_agree h (start_mem t dt), tryStep4_agree P s hs h]

theorem fsalTry1_agree (P : CtrlParams K V) (resized : Bool) (h : ∀ τ ∈ duringStep t dt, ∀ x, sys x τ = sys' x τ)
    (x : Loc) : fsalTry1 P dopri5ErrImpl resized sys x t dt = fsalTry1 P dopri5ErrImpl resized sys' x t dt := by
  simp only [fsalTry1, fsalTry3, fsalCtrlInitialize, callSys_agree h (start_mem t dt), fsalTry4_agree P h]

theorem controlledObject_agree {I : Set K} (try_ : Sys K V W → Loc → K → K → StepM K V W (TryOut K))
    (ht : ∀ t dt, duringStep t dt ⊆ I → try_ sys (.user 0) t dt = try_ sys' (.user 0) t dt) :
    TriesAgree I (controlledObject (try_ sys)) (controlledObject (try_ sys')) := by
  intro q x t dt hs
  simp only [controlledObject, ht t dt hs]

theorem controlledObject_forward (P : CtrlParams K V) {d : K} (hP : P.Sensible d) (try_ : Loc → K → K → StepM K V W (TryOut K))
    (ht : ∀ x t dt h r h', try_ x t dt h = .ok r h' → TryDecides P t dt r) : TriesForward d (controlledObject try_) := by
  intro q x t dt w r w' e hd
  simp only [controlledObject] at e
  cases hc : try_ (.user 0) t dt ((q.set (.user 0) x).withWorld w.1) with
  | ok r' h' =>
    rw [hc] at e
    cases e
    exact (ht _ _ _ _ _ _ hc).forward hP hd
  | err _ _ => rw [hc] at e; cases e
  | ub => rw [hc] at e; cases e
  | div => rw [hc] at e; cases e

/-! ## Dense output -/

/-- the invariant of the loop in `do_step` -/
def DenseInv (d t dt : K) (s : Bool × ℕ) (h : Heap K V W) : Prop :=
  SameDir d (h.num mDt) ∧ (s.1 = true → h.num mT ∈ duringStep t dt) ∧ (s.1 = false → h.num mT = t ∧ |h.num mDt| ≤ |dt|)

theorem fsalDenseBody_ok {P : CtrlParams K V} {impl : FsalErrImpl K V W} {d : K} (hP : P.Sensible d) {s s' : Bool × ℕ} {h h' : Heap K V W}
    (hd : SameDir d (h.num mDt)) (e : fsalDenseBody P impl sys s h = .ok s' h') :
    SameDir d (h'.num mDt) ∧ (s'.1 = true → h'.num mT = h.num mT + h.num mDt) ∧
      (s'.1 = false → h'.num mT = h.num mT ∧ |h'.num mDt| ≤ |h.num mDt|) := by
  unfold fsalDenseBody at e
  obtain ⟨b, h₁, e1, e⟩ := bind_ok_inv e
  cases e1
  obtain ⟨t, h₁, e1, e⟩ := bind_ok_inv e
  cases e1
  obtain ⟨dt, h₁, e1, e⟩ := bind_ok_inv e
  cases e1
  obtain ⟨r, h₁, e1, e⟩ := bind_ok_inv e
  obtain ⟨_, h₂, e2, e⟩ := bind_ok_inv e
  cases e2
  obtain ⟨_, h₂, e2, e⟩ := bind_ok_inv e
  cases e2
  obtain ⟨c, h₂, e2, e⟩ := bind_ok_inv e
  have := failedStepChecker_ok e2
  subst this
  cases e
  have hne : mT ≠ mDt := by simp [mT, mDt]
  have key := (fsalTry4_result e1).forward hP hd
  simpa [Heap.putNum_num, hne] using key

theorem fsalDenseBody_agree (P : CtrlParams K V) {I : Set K} (h : ∀ τ ∈ I, ∀ x, sys x τ = sys' x τ) (s : Bool × ℕ) (q : Heap K V W)
    (hs : duringStep (q.num mT) (q.num mDt) ⊆ I) : fsalDenseBody P dopri5ErrImpl sys s q = fsalDenseBody P dopri5ErrImpl sys' s q := by
  simp only [fsalDenseBody, M.bind_apply, getFlag, getNum]
  rw [fsalTry4_agree P fun τ hτ x => h τ (hs hτ) x]

/-- the loop in `do_step` -/
theorem fsalDenseLoop_inv {P : CtrlParams K V} {impl : FsalErrImpl K V W} {d : K} (hP : P.Sensible d) {q : Heap K V W}
    (hd : SameDir d (q.num mDt)) {s s' : Bool × ℕ} {h h' : Heap K V W} (hi : DenseInv d (q.num mT) (q.num mDt) s h) (hs : s.1 = false)
    (e : fsalDenseBody P impl sys s h = .ok s' h') : DenseInv d (q.num mT) (q.num mDt) s' h' := by
  obtain ⟨h1, h2, h3⟩ := fsalDenseBody_ok hP hi.1 e
  obtain ⟨e1, e2⟩ := hi.2.2 hs
  refine ⟨h1, fun hh => ?_, fun hh => ⟨(h3 hh).1.trans e1, (h3 hh).2.trans e2⟩⟩
  rw [h2 hh, e1]
  exact duringStep_shorter hd hi.1 e2 (end_mem _ _)

theorem DenseInv.start {d : K} {q : Heap K V W} (hd : SameDir d (q.num mDt)) : DenseInv d (q.num mT) (q.num mDt) (false, 0) q :=
  ⟨hd, by simp, fun _ => ⟨rfl, le_rfl⟩⟩

theorem fsalDenseLoop_agree (P : CtrlParams K V) {d : K} (hP : P.Sensible d) {I : Set K} (h : ∀ τ ∈ I, ∀ x, sys x τ = sys' x τ)
    (q : Heap K V W) (hs : duringStep (q.num mT) (q.num mDt) ⊆ I) (hd : SameDir d (q.num mDt)) :
    fsalDenseLoop P dopri5ErrImpl sys q = fsalDenseLoop P dopri5ErrImpl sys' q := by
  unfold fsalDenseLoop
  refine bind_congr_ok (fsalDenseBody_agree P h _ q hs) fun s h₁ e1 => ?_
  refine whileM_congr₂ (DenseInv d (q.num mT) (q.num mDt)) ?_ ?_ (fsalDenseLoop_inv hP hd (DenseInv.start hd) rfl e1)
  · intro s h' hi hc
    obtain ⟨e1, e2⟩ := hi.2.2 (by simpa using hc)
    exact fsalDenseBody_agree P h _ h' (by rw [e1]; exact (duringStep_shorter hd hi.1 e2).trans hs)
  · intro s h' s' h'' hi hc e
    exact fsalDenseLoop_inv hP hd hi (by simpa using hc) e

theorem fsalDenseDeriv_num {sys : Sys K V W} {h h' : Heap K V W} {u : Unit} (e : fsalDenseDeriv sys h = .ok u h') : h'.num = h.num := by
  unfold fsalDenseDeriv at e
  obtain ⟨i, h₁, e1, e⟩ := bind_ok_inv e
  cases e1
  split at e
  · obtain ⟨b, h₁, e1, e⟩ := bind_ok_inv e
    cases e1
    obtain ⟨t, h₁, e1, e⟩ := bind_ok_inv e
    cases e1
    obtain ⟨_, h₁, e1, e⟩ := bind_ok_inv e
    cases e
    unfold callSys at e1
    split at e1 <;> cases e1
    rfl
  · cases e; rfl

theorem fsalDenseDoStep_agree (P : CtrlParams K V) {d : K} (hP : P.Sensible d) {I : Set K} (h : ∀ τ ∈ I, ∀ x, sys x τ = sys' x τ)
    (q : Heap K V W) (hs : duringStep (q.num mT) (q.num mDt) ⊆ I) (hd : SameDir d (q.num mDt)) :
    fsalDenseDoStep P dopri5ErrImpl sys q = fsalDenseDoStep P dopri5ErrImpl sys' q := by
  unfold fsalDenseDoStep
  refine bind_congr_ok ?_ fun _ h₁ e1 => ?_
  · simp only [fsalDenseDeriv, M.bind_apply, getFlag, getNum]
    split
    · simp only [M.bind_apply, getFlag, getNum, callSys_agree h (hs (start_mem _ _))]
    · rfl
  · have en := fsalDenseDeriv_num e1
    refine bind_congr_ok rfl fun t h₂ e2 => ?_
    cases e2
    refine bind_congr_ok rfl fun _ h₂ e2 => ?_
    cases e2
    have hT : (h₁.putNum mTOld (h₁.num mT)).num mT = q.num mT := by rw [Heap.putNum_num, if_neg (by simp [mT, mTOld]), en]
    have hD : (h₁.putNum mTOld (h₁.num mT)).num mDt = q.num mDt := by rw [Heap.putNum_num, if_neg (by simp [mDt, mTOld]), en]
    refine bind_congr_ok (fsalDenseLoop_agree P hP h _ (by rw [hT, hD]; exact hs) (by rw [hD]; exact hd)) fun _ _ _ => rfl

theorem fsalDenseDoStep_ok {P : CtrlParams K V} {d : K} (hP : P.Sensible d) {q q' : Heap K V W} {r : K × K}
    (hd : SameDir d (q.num mDt)) (e : fsalDenseDoStep P dopri5ErrImpl sys q = .ok r q') :
    SameDir d (q'.num mDt) ∧ q'.num mT ∈ duringStep (q.num mT) (q.num mDt) := by
  unfold fsalDenseDoStep at e
  obtain ⟨_, h₁, e1, e⟩ := bind_ok_inv e
  have en := fsalDenseDeriv_num e1
  obtain ⟨t, h₂, e2, e⟩ := bind_ok_inv e
  cases e2
  obtain ⟨_, h₂, e2, e⟩ := bind_ok_inv e
  cases e2
  have hT : (h₁.putNum mTOld (h₁.num mT)).num mT = q.num mT := by rw [Heap.putNum_num, if_neg (by simp [mT, mTOld]), en]
  have hD : (h₁.putNum mTOld (h₁.num mT)).num mDt = q.num mDt := by rw [Heap.putNum_num, if_neg (by simp [mDt, mTOld]), en]
  obtain ⟨s, h₃, e3, e⟩ := bind_ok_inv e
  obtain ⟨_, h₄, e4, e⟩ := bind_ok_inv e
  cases e4
  obtain ⟨_, h₄, e4, e⟩ := bind_ok_inv e
  cases e4
  obtain ⟨_, h₄, e4, e⟩ := bind_ok_inv e
  cases e4
  cases e
  unfold fsalDenseLoop at e3
  obtain ⟨s₁, h₄, e4, e3⟩ := bind_ok_inv e3
  rw [← hD] at hd
  have key := whileM_ok_inv₂ (DenseInv d _ _) (fun s h' s' h'' hi hc e => fsalDenseLoop_inv hP hd hi (by simpa using hc) e)
    (fsalDenseLoop_inv hP hd (DenseInv.start hd) rfl e4) e3
  rw [← hT, ← hD]
  exact ⟨key.1.1, key.1.2.1 (by simpa using key.2)⟩

theorem denseObject_forward (P : CtrlParams K V) {d : K} (hP : P.Sensible d) (sys : Sys K V W) : DenseForward d (denseObject P sys) := by
  constructor
  · intro q x t dt w q' w' e
    simp only [denseObject] at e ⊢
    have hne : mT ≠ mDt := by simp [mT, mDt]
    cases hc : fsalDenseInit (.user 0) t dt ((q.set (.user 0) x).withWorld w.1) with
    | ok u h' =>
      rw [hc] at e
      cases e
      cases hc
      simp [currentTime, currentTimeStep, Heap.putNum_num, Heap.putFlag, hne]
    | err _ _ => rw [hc] at e; cases e
    | ub => rw [hc] at e; cases e
    | div => rw [hc] at e; cases e
  · intro q w q' w' e hd
    simp only [denseObject] at e hd ⊢
    cases hc : fsalDenseDoStep P dopri5ErrImpl sys (q.withWorld w.1) with
    | ok u h' =>
      rw [hc] at e
      cases e
      exact fsalDenseDoStep_ok hP (q := q.withWorld w.1) hd hc
    | err _ _ => rw [hc] at e; cases e
    | ub => rw [hc] at e; cases e
    | div => rw [hc] at e; cases e

theorem denseObject_agree (P : CtrlParams K V) {d : K} (hP : P.Sensible d) {I : Set K} (h : ∀ τ ∈ I, ∀ x, sys x τ = sys' x τ) :
    DenseAgree d I (denseObject P sys) (denseObject P sys') where
  init := rfl
  calcState := rfl
  curState := rfl
  curTime := rfl
  curDt := rfl
  doStep q hd hq := by
    funext w
    simp only [denseObject]
    rw [fsalDenseDoStep_agree P hP h (q.withWorld w.1) hq hd]

end Verif
