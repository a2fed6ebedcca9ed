import Verif.Lemmas.BulirschStoerDenseTry

/-!
# C24: `bulirsch_stoer_dense_out`, the tables and the meaning of a step
-/

namespace Verif
set_option linter.unusedSectionVars false
variable {K V W : Type} [Add K] [Sub K] [Mul K] [Div K] [Neg K] [IntCast K] [StateOps K V]

/-- the working order lies in `2 .. m_k_max - 1`; it is below the maximum before the first try -/
def BsdOrder (c : BsCtl K) : Prop := 2 ≤ c.kopt ∧ c.kopt ≤ 7 ∧ (c.first = true → c.kopt ≤ 6)

/-- `try_step` -/
theorem bsdTry_sat (P : BsdParams K V) {sys : Sys K V W} (hs : sys.Defined) (s : BsdState K V W) (PE : K → Prop)
    (h0 : PE (lit 0)) (hPE : ∀ v, PE (P.checker.error s.cur s.curD v s.dt).2) (hv : BsdOrder s.ctl) :
    (bsdTry P sys s).Sat
      (fun r s' => (bsTooLong P.toBsParams s.dt = true ∧ r = false ∧ s' = s.setDt P.maxDt) ∨
        (bsTooLong P.toBsParams s.dt = false ∧ TryEnd P sys PE s r s')) (fun _ s' => TryThrown s s') True := by
  unfold bsdTry
  rw [M.bind_ok (m := M.get) (w' := s) (a := s) rfl]
  split
  · rename_i h
    exact Or.inl ⟨h, rfl, rfl⟩
  · rename_i h
    exact (bsdTryBody_sat P hs s PE h0 hPE hv.1 hv.2.1 hv.2.2).mono (fun _ _ h' => Or.inr ⟨Bool.eq_false_iff.mpr h, h'⟩) (fun _ _ h => h) (fun h => h)

/-- Between the tries of a step: state `s` at the beginning, derivative `d`. -/
structure InStep (P : BsdParams K V) (sys : Sys K V W) (s : BsdState K V W) (d : V) (ok : Bool) (s' : BsdState K V W) : Prop where
  cur : s'.cur = s.cur
  curD : s'.curD = d
  tLast : s'.tLast = s.t
  order : BsdOrder s'.ctl
  kFinal : ∀ k, s'.kFinal = some k → k ≤ 8
  kSome : s.kFinal.isSome = true → s'.kFinal.isSome = true
  running : ok = false → s'.t = s.t
  done : ok = true → s'.ctl.first = false ∧ ∃ dt w k Ss w', s'.t = s.t + dt ∧ s'.kFinal = some k ∧ BsdAccepted P sys s.cur d s.t dt w k Ss s'.old w' ∧
    sys s'.old (s.t + dt) w' = .ok s'.oldD s'.world ∧ Prepared P W k Ss d dt s'.mp s'.diffs

/-- After an exception: the state, the time and the step size are those before (`s`), except that failed tries have reduced the step. -/
structure StepThrown (s : BsdState K V W) (s' : BsdState K V W) : Prop where
  cur : s'.cur = s.cur
  lo : 2 ≤ s'.ctl.kopt
  hi : s'.ctl.kopt ≤ 7
  order : s.ctl.first = false → BsdOrder s'.ctl ∧ s'.ctl.first = false
  kFinal : ∀ k, s'.kFinal = some k → k ≤ 8
  kSome : s.kFinal.isSome = true → s'.kFinal.isSome = true

theorem bsdBody_sat (P : BsdParams K V) {sys : Sys K V W} (hs : sys.Defined) (s : BsdState K V W) (d : V) (r : Bool × ℕ) (s1 : BsdState K V W)
    (h : InStep P sys s d r.1 s1) (hr : r.1 = false) (hfirst : s.ctl.first = false → s1.ctl.first = false) :
    (bsdBody P sys r s1).Sat (fun r' s' => InStep P sys s d r'.1 s' ∧ s'.ctl.first = false)
      (fun e s' => StepThrown s s' ∧ s'.t = (if e = .stepAdjustment then s'.t else s.t)) True := by
  unfold bsdBody
  refine Res.Sat.bind ((bsdTry_sat P hs s1 (fun _ => True) trivial (fun _ => trivial) h.order).mono ?_ ?_ (fun h => h))
  · intro ok s2 h2
    rw [M.bind_ok (m := M.modify _) (a := ()) (w' := s2.setCtl { s2.ctl with first := false }) rfl]
    have hI : InStep P sys s d ok (s2.setCtl { s2.ctl with first := false }) := by
      rcases h2 with ⟨-, rfl, rfl⟩ | ⟨-, hE⟩
      · exact ⟨h.cur, h.curD, h.tLast, ⟨h.order.1, h.order.2.1, fun h => (nomatch h)⟩, h.kFinal, h.kSome, fun _ => h.running hr, fun h => (nomatch h)⟩
      · refine ⟨hE.cur.trans h.cur, hE.curD.trans h.curD, hE.tLast.trans h.tLast, ⟨hE.lo, hE.hi, fun h => (nomatch h)⟩, ?_, fun _ => ?_, ?_, ?_⟩
        · intro k hk
          cases ok with
          | true =>
            obtain ⟨-, k', Ss, w, e1, e2, -⟩ := hE.acc rfl
            have hk : s2.kFinal = some k := hk
            rw [e1] at hk
            cases hk
            exact e2.2.1
          | false =>
            obtain ⟨-, k', e1, e2⟩ := hE.rej rfl
            have hk : s2.kFinal = some k := hk
            rw [e2] at hk
            cases hk
            exact e1
        · show s2.kFinal.isSome = true
          cases ok with
          | true =>
            obtain ⟨-, k', Ss, w, e1, -⟩ := hE.acc rfl
            rw [e1]; rfl
          | false =>
            obtain ⟨-, k', -, e2⟩ := hE.rej rfl
            rw [e2]; rfl
        · intro hok
          exact (hE.rej hok).1.trans (h.running hr)
        · intro hok
          obtain ⟨ht, k, Ss, w, e1, e2, e3, e4⟩ := hE.acc hok
          rw [h.running hr] at ht e2 e3
          rw [h.cur, h.curD] at e2
          rw [h.curD] at e4
          exact ⟨rfl, s1.dt, s1.world, k, Ss, w, ht, e1, e2, e3, e4⟩
    refine Res.Sat.bind ?_
    unfold failedStepChecker
    split
    · refine ⟨⟨hI.cur, hI.order.1, hI.order.2.1, fun _ => ⟨hI.order, rfl⟩, hI.kFinal, hI.kSome⟩, ?_⟩
      rw [if_pos rfl]
    · exact ⟨hI, rfl⟩
  · intro e s2 h2
    obtain ⟨k, hk, hk'⟩ := h2.kFinal
    refine ⟨⟨h2.cur.trans h.cur, h2.lo, h2.hi, fun hf => ⟨⟨h2.lo, h2.hi, fun hc => ?_⟩, h2.first.trans (hfirst hf)⟩, fun k' h' => ?_, fun _ => by rw [hk']; rfl⟩, ?_⟩
    · rw [h2.first, hfirst hf] at hc
      cases hc
    · rw [hk'] at h'
      cases h'
      exact hk
    · split
      · rfl
      · exact h2.t.trans (h.running hr)

/-- What a call of `do_step` does.  `s` and `s'` are the members before and after, `r` the result: the state of the stepper advances from time `s.t` to
`s'.t = s.t + dt` by a step that was accepted (with the derivative `d` computed at the beginning, or left by the step before); the derivative at
the new state is stored, and the interpolation data belongs to this step. -/
structure BsdStepped (P : BsdParams K V) (sys : Sys K V W) (s : BsdState K V W) (r : K × K) (s' : BsdState K V W) : Prop where
  times : r = (s.t, s'.t)
  previous : s'.old = s.cur ∧ s'.tLast = s.t
  order : BsdOrder s'.ctl ∧ s'.ctl.first = false
  accepted : ∃ d dt w k Ss w', (s.ctl.first = false → d = s.curD) ∧ (s.ctl.first = true → ∃ w0, sys s.cur s.t s.world = .ok d w0) ∧
    s'.t = s.t + dt ∧ s'.kFinal = some k ∧ BsdAccepted P sys s.cur d s.t dt w k Ss s'.cur w' ∧ sys s'.cur (s.t + dt) w' = .ok s'.curD s'.world ∧
    Prepared P W k Ss d dt s'.mp s'.diffs

theorem bsdBegin_sat {sys : Sys K V W} (hs : sys.Defined) (P : BsdParams K V) (s : BsdState K V W) (hv : BsdOrder s.ctl)
    (hk : ∀ k, s.kFinal = some k → k ≤ 8) :
    (bsdBegin sys s).Sat (fun _ s1 => ∃ d, (s.ctl.first = false → d = s.curD) ∧ (s.ctl.first = true → ∃ w0, sys s.cur s.t s.world = .ok d w0) ∧
      InStep P sys s d false s1 ∧ s1.ctl = s.ctl) (fun _ s1 => StepThrown s s1 ∧ s1.t = s.t) True := by
  unfold bsdBegin
  rw [M.bind_ok (m := M.get) (w' := s) (a := s) rfl]
  cases hf : s.ctl.first with
  | true =>
    rw [if_pos rfl, bind_assoc]
    refine Res.Sat.bind ((bsdCall_sat hs _ _ s).mono ?_ ?_ (fun _ => trivial))
    · rintro d s1 ⟨c1, c2⟩
      refine ⟨d, (fun h => nomatch h), fun _ => ⟨_, c1⟩, ?_, ?_⟩
      · rw [c2]
        exact ⟨rfl, rfl, rfl, hv, hk, fun h => h, fun _ => rfl, fun h => (nomatch h)⟩
      · rw [c2]
        rfl
    · rintro e s1 ⟨c1, c2⟩
      rw [c2]
      exact ⟨⟨rfl, hv.1, hv.2.1, fun h => absurd (hf.symm.trans h) (by simp), hk, fun h => h⟩, rfl⟩
  | false =>
    rw [if_neg (by simp)]
    exact ⟨s.curD, fun _ => rfl, fun h => (nomatch h), ⟨rfl, rfl, rfl, hv, hk, fun h => h, fun _ => rfl, fun h => (nomatch h)⟩, rfl⟩

/-- C24, `do_step`: no undefined behaviour, the meaning of a step that returns, and the members after an exception. -/
theorem bulirsch_stoer_dense_step (P : BsdParams K V) {sys : Sys K V W} (hs : sys.Defined) (s : BsdState K V W) (hv : BsdOrder s.ctl)
    (hk : ∀ k, s.kFinal = some k → k ≤ 8) :
    (bsdDoStep P sys s).Sat (fun r s' => BsdStepped P sys s r s') (fun e s' => StepThrown s s' ∧ (e ≠ .stepAdjustment → s'.t = s.t)) True := by
  unfold bsdDoStep
  refine Res.Sat.bind ((bsdBegin_sat hs P s hv hk).mono ?_ (fun _ _ h => ⟨h.1, fun _ => h.2⟩) (fun h => h))
  rintro - s1 ⟨d, hd1, hd2, hI, hc⟩
  refine Res.Sat.bind ?_
  have hloop := whileM_sat (cond := fun r : Bool × ℕ => !r.1) (body := bsdBody P sys)
    (fun r s' => InStep P sys s d r.1 s' ∧ (s.ctl.first = false → s'.ctl.first = false))
    (E := fun e s' => StepThrown s s' ∧ s'.t = (if e = .stepAdjustment then s'.t else s.t))
    (fun r s' hI' hr => (bsdBody_sat P hs s d r s' hI'.1 (by simpa using hr) hI'.2).mono (fun _ _ h => ⟨h.1, fun _ => h.2⟩) (fun _ _ h => h) (fun h => h))
    (s := (false, 0)) (w := s1) ⟨hI, fun h => by rw [hc]; exact h⟩
  refine hloop.mono ?_ ?_ (fun h => h)
  · rintro r s2 ⟨⟨hI2, -⟩, hr⟩
    have hr : r.1 = true := by simpa using hr
    obtain ⟨hf, dt, w, k, Ss, w', e1, e2, e3, e4, e5⟩ := hI2.done hr
    exact ⟨by show (s2.tLast, s2.t) = (s.t, s2.t); rw [hI2.tLast], ⟨hI2.cur, hI2.tLast⟩, ⟨hI2.order, hf⟩, d, dt, w, k, Ss, w', hd1, hd2, e1, e2, e3, e4, e5⟩
  · rintro e s2 ⟨h1, h2⟩
    refine ⟨h1, fun he => ?_⟩
    rw [if_neg he] at h2
    exact h2

/-- the members once a step has returned -/
def BsdReady (s : BsdState K V W) : Prop := BsdOrder s.ctl ∧ s.ctl.first = false ∧ ∃ k, k ≤ 8 ∧ s.kFinal = some k

/-- C24, tables (partial: `initialize` once, and the first step does not throw): whatever calls of `do_step` and `calc_state` follow, for any
system functions, error checkers, number types including NaN, step sizes and exceptions, no table access is out of bounds, `m_k_final` is assigned
when it is read, and the order lies in `2 .. 7`.  Without the restriction the claim is false, see `bsd_reinitialize_out_of_bounds`. -/
theorem bulirsch_stoer_dense_in_bounds_partial (P : BsdParams K V) (x0 : V) (t0 dt0 : K) {sys : Sys K V W} (hs : sys.Defined)
    (calls : List (BsdCall K V W)) (hd : ∀ c ∈ calls, c.Defined) (m : BsdState K V W) :
    bsdHistory P x0 t0 dt0 sys calls (bsdConstruct m) ≠ .ub ∧
      ∀ s, bsdHistory P x0 t0 dt0 sys calls (bsdConstruct m) = .ok () s → BsdReady s := by
  have hready : ∀ (sys : Sys K V W) s r s', BsdStepped P sys s r s' → BsdReady s' := by
    intro sys s r s' h
    obtain ⟨d, dt, w, k, Ss, w', -, -, -, h1, h2, -⟩ := h.accepted
    exact ⟨h.order.1, h.order.2, k, h2.2.1, h1⟩
  have hcall : ∀ (c : BsdCall K V W), c.Defined → ∀ s : BsdState K V W, BsdReady s →
      (orElse (c.run P) () s).Sat (fun _ s' => BsdReady s') (fun _ _ => True) True := by
    intro c hc s ⟨h1, h2, k, h3, h4⟩
    have : (c.run P s).Sat (fun _ s' => BsdReady s') (fun _ s' => BsdReady s') True := by
      cases c with
      | step sys =>
        refine Res.Sat.bind ((bulirsch_stoer_dense_step P hc s h1 (fun k' h' => by rw [h4] at h'; cases h'; exact h3)).mono
          (fun r s' h => hready _ _ _ _ h) ?_ (fun h => h))
        rintro e s' ⟨h, -⟩
        obtain ⟨o1, o2⟩ := h.order h2
        obtain ⟨k', hk'⟩ := Option.isSome_iff_exists.mp (h.kSome (by rw [h4]; rfl))
        exact ⟨o1, o2, k', h.kFinal k' hk', hk'⟩
      | state t =>
        obtain ⟨x, e⟩ := bsdCalcState_ok t k (by omega) s h4
        show Res.Sat ((bsdCalcState t >>= fun _ => pure ()) s) _ _ _
        rw [M.bind_ok e]
        exact ⟨h1, h2, k, h3, h4⟩
    unfold orElse
    cases hr : c.run P s with
    | ok a s' => rw [hr] at this; exact this
    | err e s' => rw [hr] at this; exact this
    | ub => rw [hr] at this; exact this
    | div => trivial
  have key : ∀ (calls : List (BsdCall K V W)), (∀ c ∈ calls, c.Defined) → ∀ s : BsdState K V W, BsdReady s →
      (runBsdCalls P calls s).Sat (fun _ s' => BsdReady s') (fun _ _ => True) True := by
    intro calls
    induction calls with
    | nil => intro _ s hs; exact hs
    | cons c cs ih =>
      intro hd s hs
      rw [runBsdCalls]
      exact Res.Sat.bind ((hcall c (hd c (by simp)) s hs).mono (fun _ s' h => ih (fun c' hc' => hd c' (by simp [hc'])) s' h) (fun _ _ _ => trivial)
        (fun h => h))
  have hall : (bsdHistory P x0 t0 dt0 sys calls (bsdConstruct m)).Sat (fun _ s' => BsdReady s') (fun _ _ => True) True := by
    unfold bsdHistory
    have hinit : ∃ s1, bsdInitialize x0 t0 dt0 (bsdConstruct m) = .ok () s1 ∧ s1.ctl.kopt = 4 ∧ s1.kFinal = none := ⟨_, rfl, rfl, rfl⟩
    obtain ⟨s1, e1, h1, h2⟩ := hinit
    rw [M.bind_ok e1]
    refine Res.Sat.bind ((bulirsch_stoer_dense_step P hs s1 ⟨by omega, by omega, fun _ => by omega⟩ (fun k h => by rw [h2] at h; cases h)).mono
      (fun r s' h => key calls hd s' (hready _ _ _ _ h)) (fun _ _ _ => trivial) (fun h => h))
  constructor
  · intro hu; rw [hu] at hall; exact hall
  · intro s hs; exact hall.of_ok hs

end Verif
