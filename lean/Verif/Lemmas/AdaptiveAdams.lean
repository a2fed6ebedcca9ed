import Verif.Spec.AdaptiveAdams
import Mathlib.Tactic.Ring
import Mathlib.Tactic.Linarith

/-!
# The counters of `adaptive_adams_coefficients`
-/

namespace Verif
set_option linter.unusedSectionVars false
variable {K V E W S α A : Type}

theorem chk_ok {p : Prop} [Decidable p] (h : p) (s : S) : (chk p : M S Unit) s = .ok () s := by
  unfold chk; rw [if_pos h]; rfl

theorem chk_ub {p : Prop} [Decidable p] (h : ¬ p) (s : S) : (chk p : M S Unit) s = .ub := by
  unfold chk; rw [if_neg h]; rfl

theorem modify_ok (f : S → S) (s : S) : M.modify f s = .ok () (f s) := rfl

theorem forN_ok {body : ℕ → M S Unit} (I : S → Prop) (n lo : ℕ)
    (hb : ∀ i s, lo ≤ i → i < lo + n → I s → ∃ s', body i s = .ok () s' ∧ I s') :
    ∀ s, I s → ∃ s', forN body n lo s = .ok () s' ∧ I s' := by
  induction n generalizing lo with
  | zero => exact fun s hs => ⟨s, rfl, hs⟩
  | succ n ih =>
    intro s hs
    obtain ⟨s1, e1, h1⟩ := hb lo s le_rfl (by omega) hs
    obtain ⟨s2, e2, h2⟩ := ih (lo + 1) (fun i s hi hi' => hb i s (by omega) (by omega)) s1 h1
    exact ⟨s2, by rw [forN, M.bind_ok e1]; exact e2, h2⟩

theorem forUp_ok {body : ℕ → M S Unit} (I : S → Prop) (lo hi : ℕ)
    (hb : ∀ i s, lo ≤ i → i < hi → I s → ∃ s', body i s = .ok () s' ∧ I s') (s : S) (hs : I s) :
    ∃ s', forUp lo hi body s = .ok () s' ∧ I s' :=
  forN_ok I (hi - lo) lo (fun i s h1 h2 => hb i s h1 (by omega)) s hs

/-- the three counters -/
structure SameCount (C C' : AdamsCoef K V) : Prop where
  eo : C'.eo = C.eo
  stepsInit : C'.stepsInit = C.stepsInit
  ns : C'.ns = C.ns

theorem SameCount.refl (C : AdamsCoef K V) : SameCount C C := ⟨rfl, rfl, rfl⟩
theorem SameCount.trans {C C' C'' : AdamsCoef K V} (h : SameCount C C') (h' : SameCount C' C'') : SameCount C C'' :=
  ⟨h'.eo.trans h.eo, h'.stepsInit.trans h.stepsInit, h'.ns.trans h.ns⟩

/-- the invariant of the counters -/
structure AdamsInv (N : ℕ) (C : AdamsCoef K V) : Prop where
  pos : 1 ≤ C.eo
  le : C.eo ≤ N
  hist : C.eo ≤ C.stepsInit
  cap : C.stepsInit ≤ N + 1
  ns : C.ns = 0

theorem AdamsInv.same {N : ℕ} {C C' : AdamsCoef K V} (h : AdamsInv N C) (hs : SameCount C C') : AdamsInv N C' :=
  ⟨hs.eo ▸ h.pos, hs.eo ▸ h.le, hs.eo ▸ hs.stepsInit ▸ h.hist, hs.stepsInit ▸ h.cap, hs.ns ▸ h.ns⟩

section Coef
variable [Add K] [Sub K] [Mul K] [Div K] [Neg K] [IntCast K]

theorem mul_row_lt {n i j : ℕ} (hi : i < n) (hj : j < n) : n * i + j < n * n := by
  calc n * i + j < n * i + n := by omega
    _ = n * (i + 1) := by ring
    _ ≤ n * n := Nat.mul_le_mul_left _ hi

/-- `predict` returns and keeps the counters. -/
theorem adamsPredict_ok (N : ℕ) (O : NumOps K) (t dt : K) (C : AdamsCoef K V) (h : AdamsInv N C) :
    ∃ C', adamsPredict N O t dt C = .ok () C' ∧ SameCount C C' := by
  have hp := h.pos
  have hl := h.le
  have hh := h.hist
  have hc := h.cap
  have hn := h.ns
  have e1 : AdamsCoef.countEqual N O dt (C.setTime 0 t) = (C.setTime 0 t).setNs 0 := by
    unfold AdamsCoef.countEqual
    rw [if_pos]
    right
    show C.ns ≤ C.eo
    omega
  unfold adamsPredict
  rw [M.bind_ok (chk_ok (by omega) _), M.bind_ok (modify_ok _ _), M.bind_ok (modify_ok _ _), e1]
  have h0 : SameCount C ((C.setTime 0 t).setNs 0) := ⟨rfl, rfl, hn.symm⟩
  generalize (C.setTime 0 t).setNs 0 = C0 at h0 ⊢
  rw [M.bind_ok (m := M.get) (w' := C0) (a := C0) rfl]
  have hi := h0.eo
  have hs := h0.stepsInit
  have hns := h0.ns
  obtain ⟨C1, f1, h1⟩ := forUp_ok (fun C' => SameCount C C') (1 + C0.ns) (min (C0.eo + 1) C0.stepsInit) (body := betaStep N dt)
    (by
      intro i s hlo hhi hsame
      refine ⟨_, by unfold betaStep; rw [M.bind_ok (chk_ok (by omega) _)]; rfl, ?_⟩
      exact ⟨hsame.eo, hsame.stepsInit, hsame.ns⟩) C0 h0
  rw [M.bind_ok f1]
  obtain ⟨C2, f2, h2⟩ := forUp_ok (fun C' => SameCount C C') (2 + C0.ns) (min (C0.eo + 2) (C0.stepsInit + 1))
    (body := fun i => do forUp 0 (C0.eo + 1 - i + 1) (cStep N dt i); gStep N i)
    (by
      intro i s hlo hhi hsame
      obtain ⟨s1, g1, k1⟩ := forUp_ok (fun C' => SameCount C C') 0 (C0.eo + 1 - i + 1) (body := cStep N dt i)
        (by
          intro j s' _ hj hs'
          have hrow := mul_row_lt (n := N + 2) (i := i - 1) (j := j + 1) (by omega) (by omega)
          refine ⟨_, by
            unfold cStep
            rw [M.bind_ok (chk_ok ⟨by omega, by omega, mul_row_lt (by omega) (by omega), hrow⟩ _)]
            rfl, ?_⟩
          exact ⟨hs'.eo, hs'.stepsInit, hs'.ns⟩) s hsame
      refine ⟨_, by rw [M.bind_ok g1]; unfold gStep; rw [M.bind_ok (chk_ok (by omega) _)]; rfl, ?_⟩
      exact ⟨k1.eo, k1.stepsInit, k1.ns⟩) C1 h1
  exact ⟨C2, f2, h2⟩

variable [StateOps K V]

/-- `do_step` returns and keeps the counters. -/
theorem adamsUpdate_ok (N : ℕ) (d : V) (o : ℕ) (ho : o < 3) (C : AdamsCoef K V) :
    ∃ C', adamsUpdate N d o C = .ok () C' ∧ SameCount C C' := by
  unfold adamsUpdate
  rw [M.bind_ok (modify_ok _ _)]
  have h0 : SameCount C (C.setPhi o 0 d) := ⟨rfl, rfl, rfl⟩
  generalize C.setPhi o 0 d = C0 at h0 ⊢
  rw [M.bind_ok (m := M.get) (w' := C0) (a := C0) rfl]
  exact forUp_ok (fun C' => SameCount C C') 1 _ (body := phiStep N o)
    (by
      intro i s hlo hhi hsame
      refine ⟨_, by unfold phiStep; rw [M.bind_ok (chk_ok (by omega) _)]; rfl, ?_⟩
      exact ⟨hsame.eo, hsame.stepsInit, hsame.ns⟩) C0 h0

end Coef

theorem onCoef_ok {m : M (AdamsCoef K V) α} {s : AdState K V E W} {a : α} {C : AdamsCoef K V} (h : m s.coef = .ok a C) :
    onCoef m s = .ok a { s with coef := C } := by unfold onCoef; rw [h]

/-! ## The stepper -/

section Stepper
variable [Add K] [Sub K] [Mul K] [Div K] [Neg K] [IntCast K] [StateOps K V]

theorem adamsCall_sat {sys : Sys K V W} (hsys : sys.Defined) (x : V) (t : K) (s : AdState K V E W) :
    (adamsCall sys x t s).Sat (fun _ s' => s'.coef = s.coef ∧ s'.ext = s.ext) (fun _ s' => s'.coef = s.coef ∧ s'.ext = s.ext) True := by
  unfold adamsCall
  have := hsys x t s.world
  cases h : sys x t s.world with
  | ok d w => exact ⟨rfl, rfl⟩
  | err e w => exact ⟨rfl, rfl⟩
  | ub => exact absurd h this
  | div => trivial

theorem outside_sat {m : M W α} (hm : ∀ w, m w ≠ .ub) (s : AdState K V E W) :
    (outside m s).Sat (fun _ s' => s'.coef = s.coef ∧ s'.ext = s.ext) (fun _ s' => s'.coef = s.coef ∧ s'.ext = s.ext) True := by
  unfold outside
  have := hm s.world
  cases h : m s.world with
  | ok d w => exact ⟨rfl, rfl⟩
  | err e w => exact ⟨rfl, rfl⟩
  | ub => exact absurd h this
  | div => trivial

theorem onCoef_sat {m : M (AdamsCoef K V) Unit} {s : AdState K V E W} {C0 : AdamsCoef K V} (h : ∃ C, m s.coef = .ok () C ∧ SameCount s.coef C)
    (h0 : SameCount C0 s.coef) :
    (onCoef m s).Sat (fun _ s' => SameCount C0 s'.coef ∧ s'.ext = s.ext) (fun _ _ => False) False := by
  obtain ⟨C, hC, hs⟩ := h
  rw [onCoef_ok hC]
  exact ⟨h0.trans hs, rfl⟩

theorem predictor_ok (N : ℕ) (dt : K) (n lo : ℕ) (hn : lo + n ≤ N + 1) (x : V) (s : AdState K V E W) :
    ∃ out, foldN (predictorStep N dt) n lo x s = .ok out s := by
  induction n generalizing lo x with
  | zero => exact ⟨x, rfl⟩
  | succ n ih =>
    rw [foldN]
    have : predictorStep N dt lo x s = .ok (lin [((lit 1 : K), x), (dt * s.coef.g lo * s.coef.beta 0 lo, s.coef.phi 1 lo)]) s := by
      unfold predictorStep
      rw [M.bind_ok (chk_ok (by omega) _)]
      rfl
    rw [M.bind_ok this]
    exact ih (lo + 1) (by omega) _

/-- `do_step_impl` keeps the counters, and whatever happens no access is out of bounds. -/
theorem adamsStepImpl_sat (N : ℕ) (O : NumOps K) {sys : Sys K V W} (hsys : sys.Defined) (x : V) (t dt : K) (s : AdState K V E W)
    (h : AdamsInv N s.coef) :
    (adamsStepImpl N O sys x t dt s).Sat (fun _ s' => SameCount s.coef s'.coef ∧ s'.ext = s.ext)
      (fun _ s' => SameCount s.coef s'.coef ∧ s'.ext = s.ext) True := by
  have hp := h.pos
  have hl := h.le
  unfold adamsStepImpl
  rw [M.bind_ok (m := M.get) (w' := s) (a := s) rfl]
  apply Res.Sat.bind
  refine (onCoef_sat (adamsPredict_ok N O t dt s.coef h) (SameCount.refl _)).mono ?_ (by simp) (by simp)
  rintro - s1 ⟨h1, x1⟩
  rw [M.bind_ok (m := M.get) (w' := s1) (a := s1) rfl]
  apply Res.Sat.bind
  have : ((if s1.coef.stepsInit = 1 then do
      adamsCall sys x t
      let s ← M.get
      onCoef (adamsUpdate N s.dxdt 1)
    else pure ()) s1).Sat (fun _ s' => SameCount s.coef s'.coef ∧ s'.ext = s.ext)
      (fun _ s' => SameCount s.coef s'.coef ∧ s'.ext = s.ext) True := by
    split
    · apply Res.Sat.bind
      refine (adamsCall_sat hsys x t s1).mono ?_ ?_ (by simp)
      · rintro - s2 ⟨c2, x2⟩
        rw [M.bind_ok (m := M.get) (w' := s2) (a := s2) rfl]
        refine (onCoef_sat (adamsUpdate_ok N _ 1 (by omega) s2.coef) (c2 ▸ h1)).mono ?_ (by simp) (by simp)
        rintro - s3 ⟨h3, x3⟩
        exact ⟨h3, x3.trans (x2.trans x1)⟩
      · rintro e s2 ⟨c2, x2⟩
        exact ⟨c2 ▸ h1, x2.trans x1⟩
    · exact ⟨h1, x1⟩
  refine this.mono ?_ (fun _ _ h => h) (fun h => h)
  rintro - s2 ⟨h2, x2⟩
  obtain ⟨out, ho⟩ := predictor_ok N dt s.coef.eo 0 (by omega) x s2
  rw [M.bind_ok ho]
  apply Res.Sat.bind
  refine (adamsCall_sat hsys out (t + dt) s2).mono ?_ ?_ (by simp)
  · rintro - s3 ⟨c3, x3⟩
    rw [M.bind_ok (m := M.get) (w' := s3) (a := s3) rfl]
    apply Res.Sat.bind
    refine (onCoef_sat (adamsUpdate_ok N _ 0 (by omega) s3.coef) (c3 ▸ h2)).mono ?_ (by simp) (by simp)
    rintro - s4 ⟨h4, x4⟩
    rw [M.bind_ok (chk_ok (by omega) _), M.bind_ok (m := M.get) (w' := s4) (a := s4) rfl]
    exact ⟨h4, x4.trans (x3.trans x2)⟩
  · rintro e s3 ⟨c3, x3⟩
    exact ⟨c3 ▸ h2, x3.trans x2⟩

/-- the counters after `confirm` -/
theorem confirm_count (N : ℕ) {C C' : AdamsCoef K V} (h : SameCount C C') :
    (C'.confirm N).eo = C.eo ∧ (C'.confirm N).stepsInit = (if C.stepsInit < N + 1 then C.stepsInit + 1 else C.stepsInit) ∧
      (C'.confirm N).ns = C.ns := by
  refine ⟨h.eo, ?_, h.ns⟩
  show (if C'.stepsInit < N + 1 then C'.stepsInit + 1 else C'.stepsInit) = _
  rw [h.stepsInit]

/-- after a step of the uncontrolled stepper -/
structure AfterStep (N : ℕ) (C C' : AdamsCoef K V) : Prop where
  eo : C'.eo = if C.eo < N then C.eo + 1 else C.eo
  stepsInit : C'.stepsInit = if C.stepsInit < N + 1 then C.stepsInit + 1 else C.stepsInit
  ns : C'.ns = C.ns

theorem AfterStep.inv {N : ℕ} {C C' : AdamsCoef K V} (h : AfterStep N C C') (hi : AdamsInv N C) : AdamsInv N C' := by
  have h1 := h.eo
  have h2 := h.stepsInit
  have h3 := h.ns
  obtain ⟨a, b, c, d, e⟩ := hi
  constructor <;> split_ifs at h1 h2 <;> omega

theorem afterStep_of (N : ℕ) {C C' : AdamsCoef K V} (h : SameCount C C') : AfterStep N C ((C'.confirm N).raise N) := by
  obtain ⟨h1, h2, h3⟩ := confirm_count N h
  unfold AdamsCoef.raise
  rw [h1]
  by_cases hlt : C.eo < N
  · rw [if_pos hlt]; exact ⟨by rw [if_pos hlt]; rfl, h2, h3⟩
  · rw [if_neg hlt]; exact ⟨by rw [if_neg hlt]; exact h1, h2, h3⟩

theorem aabmDoStep_sat (N : ℕ) (O : NumOps K) {sys : Sys K V W} (hsys : sys.Defined) (x : V) (t dt : K) (s : AdState K V E W)
    (h : AdamsInv N s.coef) :
    (aabmDoStep N O sys x t dt s).Sat (fun _ s' => AfterStep N s.coef s'.coef ∧ s'.ext = s.ext)
      (fun _ s' => SameCount s.coef s'.coef ∧ s'.ext = s.ext) True := by
  unfold aabmDoStep
  apply Res.Sat.bind
  refine (adamsStepImpl_sat N O hsys x t dt s h).mono ?_ (fun _ _ h => h) (fun h => h)
  rintro r s1 ⟨h1, x1⟩
  apply Res.Sat.bind
  refine (adamsCall_sat hsys r.1 (t + dt) s1).mono ?_ ?_ (by simp)
  · rintro - s2 ⟨c2, x2⟩
    rw [M.bind_ok (m := M.get) (w' := s2) (a := s2) rfl]
    apply Res.Sat.bind
    refine (onCoef_sat (adamsUpdate_ok N _ 0 (by omega) s2.coef) (c2 ▸ h1)).mono ?_ (by simp) (by simp)
    rintro - s3 ⟨h3, x3⟩
    exact ⟨afterStep_of N h3, x3.trans (x2.trans x1)⟩
  · rintro e s2 ⟨c2, x2⟩
    exact ⟨c2 ▸ h1, x2.trans x1⟩

theorem reset_inv (N : ℕ) (hN : 1 ≤ N) {C : AdamsCoef K V} (h : AdamsInv N C) : AdamsInv N C.reset :=
  ⟨le_rfl, hN, le_rfl, by show 1 ≤ N + 1; omega, h.ns⟩

theorem foldN_sat {body : ℕ → α → M S α} (I : S → Prop) (J : S → Prop) {D : Prop}
    (hb : ∀ i a s, I s → (body i a s).Sat (fun _ s' => I s') (fun _ s' => J s') D) (n lo : ℕ) (a : α) (s : S) (hs : I s) :
    (foldN body n lo a s).Sat (fun _ s' => I s') (fun _ s' => J s') D := by
  induction n generalizing lo a s with
  | zero => exact hs
  | succ n ih =>
    rw [foldN]
    apply Res.Sat.bind
    exact (hb lo a s hs).mono (fun a' s' h' => ih (lo + 1) a' s' h') (fun _ _ h => h) (fun h => h)

theorem aabmInitStep_sat (N : ℕ) (O : NumOps K) {start : V → V → K → K → M W V} (hst : ∀ x d t dt w, start x d t dt w ≠ .ub)
    {sys : Sys K V W} (hsys : sys.Defined) (dt : K) (p : V × K) (s : AdState K V E W) (h : AdamsInv N s.coef) :
    (aabmInitStep N O start sys dt p s).Sat (fun _ s' => AfterStep N s.coef s'.coef ∧ s'.ext = s.ext)
      (fun _ s' => SameCount s.coef s'.coef ∧ s'.ext = s.ext) True := by
  unfold aabmInitStep
  rw [M.bind_ok (m := M.get) (w' := s) (a := s) rfl]
  apply Res.Sat.bind
  refine (outside_sat (fun w => hst _ _ _ _ w) s).mono ?_ (fun _ s' h => ⟨h.1 ▸ SameCount.refl _, h.2⟩) (fun h => h)
  rintro x s1 ⟨h1, x1⟩
  apply Res.Sat.bind
  refine (adamsCall_sat hsys x (p.2 + dt) s1).mono ?_ (fun _ s' h => ⟨by rw [h.1, h1]; exact SameCount.refl _, h.2.trans x1⟩) (fun h => h)
  rintro - s2 ⟨c2, x2⟩
  apply Res.Sat.bind
  have c2' : s2.coef = s.coef := c2.trans h1
  refine (onCoef_sat (adamsPredict_ok N O p.2 dt s2.coef (c2' ▸ h)) (c2' ▸ SameCount.refl s.coef : SameCount s.coef s2.coef)).mono ?_ (by simp) (by simp)
  rintro - s3 ⟨h3, x3⟩
  rw [M.bind_ok (m := M.get) (w' := s3) (a := s3) rfl]
  apply Res.Sat.bind
  refine (onCoef_sat (adamsUpdate_ok N _ 0 (by omega) s3.coef) h3).mono ?_ (by simp) (by simp)
  rintro - s4 ⟨h4, x4⟩
  exact ⟨afterStep_of N h4, x4.trans (x3.trans (x2.trans x1))⟩

theorem inv_of_same {N : ℕ} {C C' : AdamsCoef K V} (h : AdamsInv N C) (hs : SameCount C C') : AdamsInv N C' := h.same hs

theorem aabmInitializeWith_sat (N : ℕ) (hN : 1 ≤ N) (O : NumOps K) {start : V → V → K → K → M W V} (hst : ∀ x d t dt w, start x d t dt w ≠ .ub)
    {sys : Sys K V W} (hsys : sys.Defined) (x : V) (t dt : K) (s : AdState K V E W) (h : AdamsInv N s.coef) :
    (aabmInitializeWith N O start sys x t dt s).Sat (fun _ s' => AdamsInv N s'.coef) (fun _ s' => AdamsInv N s'.coef) True := by
  unfold aabmInitializeWith
  rw [M.bind_ok (onCoef_ok (modify_ok _ _))]
  have h0 : AdamsInv N s.coef.reset := reset_inv N hN h
  apply Res.Sat.bind
  refine (adamsCall_sat hsys x t _).mono ?_ (fun _ s' h => by rw [h.1]; exact h0) (fun h => h)
  rintro - s1 ⟨h1, -⟩
  refine foldN_sat (fun s' => AdamsInv N s'.coef) _ ?_ N 0 (x, t) s1 (by rw [h1]; exact h0)
  intro i p s' hs'
  exact (aabmInitStep_sat N O hst hsys _ p s' hs').mono (fun _ _ h => h.1.inv hs') (fun _ _ h => hs'.same h.1) (fun h => h)

theorem aabmInitialize_sat (N : ℕ) (hN : 1 ≤ N) (O : NumOps K)
    {sys : Sys K V W} (hsys : sys.Defined) (x : V) (t dt : K) (s : AdState K V E W) (h : AdamsInv N s.coef) :
    (aabmInitialize N O sys x t dt s).Sat (fun _ s' => AdamsInv N s'.coef) (fun _ s' => AdamsInv N s'.coef) True := by
  unfold aabmInitialize
  rw [M.bind_ok (onCoef_ok (modify_ok _ _))]
  have h0 : AdamsInv N s.coef.reset := reset_inv N hN h
  refine foldN_sat (fun s' : AdState K V E W => AdamsInv N s'.coef) _ ?_ N 0 (x, t) _ h0
  intro i p s' hs'
  unfold aabmInitSelf
  apply Res.Sat.bind
  exact (aabmDoStep_sat N O hsys p.1 p.2 _ s' hs').mono (fun _ _ h => h.1.inv hs') (fun _ _ h => hs'.same h.1) (fun h => h)

end Stepper

/-! ## The controller -/

section Controlled
variable [Add K] [Sub K] [Mul K] [Div K] [Neg K] [IntCast K] [StateOps K V]

/-- the order adjuster changes the order by at most one, and only within `1 .. maxOrder` -/
theorem adjustOrder_range (O : NumOps K) (N : ℕ) (norm : V → K) (order init : ℕ) (xerr : ℕ → V)
    (h1 : 1 ≤ order) (h2 : order ≤ N) (h3 : order ≤ init) :
    1 ≤ adjustOrder O N norm order init xerr ∧ adjustOrder O N norm order init xerr ≤ N ∧
      adjustOrder O N norm order init xerr ≤ order + 1 ∧ order ≤ adjustOrder O N norm order init xerr + 1 := by
  have key : ∀ (errc errm1 errm2 : K), lowerOrder O order errc errm1 errm2 = true → 2 ≤ order := by
    intro errc errm1 errm2 hl
    unfold lowerOrder at hl
    simp only [Bool.or_eq_true, Bool.and_eq_true, beq_iff_eq, decide_eq_true_eq] at hl
    rcases hl with ⟨h, -⟩ | ⟨⟨h, -⟩, -⟩ <;> omega
  unfold adjustOrder
  dsimp only
  rw [if_neg (show ¬ init < order by omega), if_pos h2]
  generalize (if 2 < order then O.abs (norm (xerr 0)) else lit 3 * O.abs (norm (xerr 2))) = errm2
  generalize (if 2 ≤ order then O.abs (norm (xerr 1)) else lit 3 * O.abs (norm (xerr 2))) = errm1
  split
  · rename_i hl
    have := key _ _ _ hl
    omega
  · split
    · rename_i h; omega
    · split
      · rename_i h; omega
      · omega

theorem ctrlCall_sat {sys : Sys K V W} (hsys : sys.Defined) (x : V) (t : K) (s : AdState K V (CtrlMem V A) W) :
    (ctrlCall sys x t s).Sat (fun _ s' => s'.coef = s.coef) (fun _ s' => s'.coef = s.coef) True := by
  unfold ctrlCall
  have := hsys x t s.world
  cases h : sys x t s.world with
  | ok d w => rfl
  | err e w => rfl
  | ub => exact absurd h this
  | div => trivial

theorem estimate_sat (N : ℕ) (dt : K) (i k : ℕ) (hi : i < 4) (hk : k < 14) (hk' : k < N + 2) (s : AdState K V (CtrlMem V A) W) :
    (estimate N dt i k s).Sat (fun _ s' => s'.coef = s.coef) (fun _ _ => False) False := by
  unfold estimate
  rw [M.bind_ok (chk_ok ⟨hk, hk'⟩ _), M.bind_ok (m := M.get) (w' := s) (a := s) rfl]
  unfold setErr
  rw [M.bind_ok (chk_ok hi _)]
  rfl

/-- after an accepted step -/
structure AfterAccept (N : ℕ) (C C' : AdamsCoef K V) : Prop where
  pos : 1 ≤ C'.eo
  le : C'.eo ≤ N
  up : C'.eo ≤ C.eo + 1
  down : C.eo ≤ C'.eo + 1
  stepsInit : C'.stepsInit = if C.stepsInit < N + 1 then C.stepsInit + 1 else C.stepsInit
  ns : C'.ns = C.ns

theorem AfterAccept.inv {N : ℕ} {C C' : AdamsCoef K V} (h : AfterAccept N C C') (hi : AdamsInv N C) : AdamsInv N C' := by
  have h2 := h.stepsInit
  obtain ⟨a, b, c, d, -, f⟩ := h
  obtain ⟨a', b', c', d', e'⟩ := hi
  constructor <;> split_ifs at h2 <;> omega

theorem acceptStep_sat (N : ℕ) (hN : N ≤ 13) (O : NumOps K) (norm : V → K) {sys : Sys K V W} (hsys : sys.Defined) (out : V) (tNew dt : K)
    (s : AdState K V (CtrlMem V A) W) (h : AdamsInv N s.coef) :
    (acceptStep N O norm sys out tNew dt s).Sat (fun _ s' => AfterAccept N s.coef s'.coef) (fun _ s' => SameCount s.coef s'.coef) True := by
  have hp := h.pos
  have hl := h.le
  unfold acceptStep
  apply Res.Sat.bind
  refine (ctrlCall_sat hsys out tNew s).mono ?_ (fun _ s' h => h ▸ SameCount.refl _) (fun h => h)
  intro _ s1 c1
  rw [M.bind_ok (m := M.get) (w' := s1) (a := s1) rfl]
  apply Res.Sat.bind
  refine (onCoef_sat (adamsUpdate_ok N _ 0 (by omega) s1.coef) (c1 ▸ SameCount.refl s.coef : SameCount s.coef s1.coef)).mono ?_ (by simp) (by simp)
  rintro - s2 ⟨h2, -⟩
  rw [M.bind_ok (onCoef_ok (modify_ok _ _))]
  obtain ⟨e1, e2, e3⟩ := confirm_count N h2
  have hinit : s.coef.eo ≤ (s2.coef.confirm N).stepsInit - 1 := by
    rw [e2]
    have := h.hist
    have := h.cap
    split_ifs <;> omega
  generalize s2.coef.confirm N = C at e1 e2 e3 hinit ⊢
  generalize hs3 : ({ s2 with coef := C } : AdState K V (CtrlMem V A) W) = s3
  have c3 : s3.coef = C := by subst hs3; rfl
  rw [M.bind_ok (m := M.get) (w' := s3) (a := s3) rfl, c3]
  have step : ∀ (b : Prop) [Decidable b] (i k : ℕ) (s' : AdState K V (CtrlMem V A) W), i < 4 → (b → k < 14 ∧ k < N + 2) → s'.coef = C →
      ((if b then estimate N dt i k else pure ()) s').Sat (fun _ s'' => s''.coef = C) (fun _ _ => False) False := by
    intro b _ i k s' hi hk hc
    split
    · rename_i hb
      exact (estimate_sat N dt i k hi (hk hb).1 (hk hb).2 s').mono (fun _ _ h => h.trans hc) (by simp) (by simp)
    · exact hc
  apply Res.Sat.bind
  refine (estimate_sat N dt 2 C.eo (by omega) (by omega) (by omega) s3).mono ?_ (by simp) (by simp)
  intro _ s4 c4
  apply Res.Sat.bind
  refine (step (1 < C.eo) 1 (C.eo - 1) s4 (by omega) (fun _ => by omega) (c4.trans c3)).mono ?_ (by simp) (by simp)
  intro _ s5 c5
  apply Res.Sat.bind
  refine (step (2 < C.eo) 0 (C.eo - 2) s5 (by omega) (fun _ => by omega) c5).mono ?_ (by simp) (by simp)
  intro _ s6 c6
  apply Res.Sat.bind
  refine (step (C.eo < N ∧ C.eo < C.stepsInit - 1) 3 (C.eo + 1) s6 (by omega) (fun _ => by omega) c6).mono ?_ (by simp) (by simp)
  intro _ s7 c7
  rw [M.bind_ok (m := M.get) (w' := s7) (a := s7) rfl, onCoef_ok (modify_ok _ _)]
  have hr := adjustOrder_range O N norm s7.coef.eo (s7.coef.stepsInit - 1) s7.ext.xerr (by rw [c7]; omega) (by rw [c7]; omega)
    (by rw [c7]; omega)
  show AfterAccept N s.coef (s7.coef.setEo _)
  generalize adjustOrder O N norm s7.coef.eo (s7.coef.stepsInit - 1) s7.ext.xerr = o at hr ⊢
  rw [c7] at hr ⊢
  rw [e1] at hr
  exact ⟨hr.1, hr.2.1, hr.2.2.1, hr.2.2.2, e2, e3⟩

theorem cabmTryStep_sat (N : ℕ) (hN : N ≤ 13) (O : NumOps K) (norm : V → K) (P : AdamsAdjuster K V A) {sys : Sys K V W} (hsys : sys.Defined)
    (x : V) (t dt : K) (s : AdState K V (CtrlMem V A) W) (h : AdamsInv N s.coef) :
    (cabmTryStep N O norm P sys x t dt s).Sat
      (fun r s' => if r.success then AfterAccept N s.coef s'.coef else SameCount s.coef s'.coef) (fun _ s' => SameCount s.coef s'.coef) True := by
  unfold cabmTryStep
  apply Res.Sat.bind
  refine (adamsStepImpl_sat N O hsys x t dt s h).mono ?_ (fun _ _ h => h.1) (fun h => h)
  rintro r s1 ⟨h1, -⟩
  have e1 : setErr 2 r.2 s1 = .ok () { s1 with ext := { s1.ext with xerr := fun j => if j = 2 then r.2 else s1.ext.xerr j } } := by
    unfold setErr
    rw [M.bind_ok (chk_ok (by omega) _)]
    rfl
  rw [M.bind_ok e1]
  generalize hs2 : ({ s1 with ext := { s1.ext with xerr := fun j => if j = 2 then r.2 else s1.ext.xerr j } } : AdState K V (CtrlMem V A) W) = s2
  have h2 : SameCount s.coef s2.coef := by subst hs2; exact h1
  obtain ⟨dtNew, s3, e3, c3⟩ : ∃ dtNew s3, callAdjuster P dt r.1 s2 = .ok dtNew s3 ∧ s3.coef = s2.coef := ⟨_, _, rfl, rfl⟩
  rw [M.bind_ok e3]
  rw [← c3] at h2
  split
  · apply Res.Sat.bind
    have h3 : AdamsInv N s3.coef := h.same h2
    refine (acceptStep_sat N hN O norm hsys r.1 (t + dt) _ _ h3).mono ?_ (fun _ _ h => h2.trans h) (fun h => h)
    rintro - s4 ⟨a1, a2, a3, a4, a5, a6⟩
    show AfterAccept N s.coef s4.coef
    exact ⟨a1, a2, h2.eo ▸ a3, h2.eo ▸ a4, by rw [← h2.stepsInit]; exact a5, h2.ns ▸ a6⟩
  · exact h2

theorem cabmTryStepInOut_sat (N : ℕ) (hN : N ≤ 13) (O : NumOps K) (norm : V → K) (P : AdamsAdjuster K V A) {sys : Sys K V W} (hsys : sys.Defined)
    (x : V) (t dt : K) (s : AdState K V (CtrlMem V A) W) (h : AdamsInv N s.coef) :
    (cabmTryStepInOut N O norm P sys x t dt s).Sat
      (fun r s' => if r.success then AfterAccept N s.coef s'.coef else SameCount s.coef s'.coef) (fun _ s' => SameCount s.coef s'.coef) True := by
  unfold cabmTryStepInOut
  apply Res.Sat.bind
  exact (cabmTryStep_sat N hN O norm P hsys x t dt s h).mono (fun _ _ h => h) (fun _ _ h => h) (fun h => h)

theorem untilSuccess_sat {tryOther : V → K → K → M W (CabmOut K V)} (hst : ∀ x t dt w, tryOther x t dt w ≠ .ub) (x : V) (t dt : K)
    (s : AdState K V (CtrlMem V A) W) :
    (untilSuccess tryOther x t dt s).Sat (fun _ s' => s'.coef = s.coef) (fun _ s' => s'.coef = s.coef) True := by
  unfold untilSuccess
  refine (whileM_sat (I := fun _ s' => s'.coef = s.coef) ?_ rfl).mono (fun _ _ h => h.1) (fun _ _ h => h) (fun _ => trivial)
  intro r s' h' _
  exact (outside_sat (fun w => hst _ _ _ w) s').mono (fun _ _ h => h.1.trans h') (fun _ _ h => h.1.trans h') (fun h => h)

theorem cabmInitStep_sat (N : ℕ) (O : NumOps K) {tryOther : V → K → K → M W (CabmOut K V)} (hst : ∀ x t dt w, tryOther x t dt w ≠ .ub)
    {sys : Sys K V W} (hsys : sys.Defined) (p : V × K × K) (s : AdState K V (CtrlMem V A) W) (h : AdamsInv N s.coef) :
    (cabmInitStep N O tryOther sys p s).Sat (fun _ s' => AfterStep N s.coef s'.coef) (fun _ s' => SameCount s.coef s'.coef) True := by
  unfold cabmInitStep
  apply Res.Sat.bind
  refine (untilSuccess_sat hst _ _ _ s).mono ?_ (fun _ s' h => h ▸ SameCount.refl _) (fun h => h)
  intro r s1 h1
  apply Res.Sat.bind
  refine (ctrlCall_sat hsys r.out r.t s1).mono ?_ (fun _ s' h => by rw [h, h1]; exact SameCount.refl _) (fun h => h)
  intro _ s2 c2
  have c2' : s2.coef = s.coef := c2.trans h1
  apply Res.Sat.bind
  refine (onCoef_sat (adamsPredict_ok N O _ r.dt s2.coef (c2' ▸ h)) (c2' ▸ SameCount.refl s.coef : SameCount s.coef s2.coef)).mono ?_ (by simp) (by simp)
  rintro - s3 ⟨h3, x3⟩
  rw [M.bind_ok (m := M.get) (w' := s3) (a := s3) rfl]
  apply Res.Sat.bind
  refine (onCoef_sat (adamsUpdate_ok N _ 0 (by omega) s3.coef) h3).mono ?_ (by simp) (by simp)
  rintro - s4 ⟨h4, x4⟩
  exact afterStep_of N h4

theorem cabmInitializeControlled_sat (N : ℕ) (hN : 1 ≤ N) (O : NumOps K) {tryOther : V → K → K → M W (CabmOut K V)}
    (hst : ∀ x t dt w, tryOther x t dt w ≠ .ub) {sys : Sys K V W} (hsys : sys.Defined) (x : V) (t dt : K)
    (s : AdState K V (CtrlMem V A) W) (h : AdamsInv N s.coef) :
    (cabmInitializeControlled N O tryOther sys x t dt s).Sat (fun _ s' => AdamsInv N s'.coef) (fun _ s' => AdamsInv N s'.coef) True := by
  unfold cabmInitializeControlled
  rw [M.bind_ok (onCoef_ok (modify_ok _ _))]
  have h0 : AdamsInv N s.coef.reset := reset_inv N hN h
  refine foldN_sat (fun s' : AdState K V (CtrlMem V A) W => AdamsInv N s'.coef) _ ?_ N 0 (x, t, dt) _ h0
  intro i p s' hs'
  exact (cabmInitStep_sat N O hst hsys p s' hs').mono (fun _ _ h => h.inv hs') (fun _ _ h => hs'.same h) (fun h => h)

end Controlled
end Verif
