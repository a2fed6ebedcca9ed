import Verif.Props.BulirschStoerDense
import Verif.Props.BulirschStoerSize

/-!
# C24: the step size of `bulirsch_stoer_dense_out`

Arithmetic of real numbers with infinities and NaN, as for `bulirsch_stoer`.  Integration forwards in time: a rejected try reduces the step.
Integration backwards: the comparison `new_h < dt` ignores the sign of the step, and from the second rejected try in a row the step is left as it is.
-/

namespace Verif
set_option linter.unusedSectionVars false
open XR
variable {V W : Type} [StateOps XR V]

/-- `pow` with a negative exponent, for the errors of the interpolation: above 10, and finite -/
def XR.PowNeg (pow : XR → XR → XR) : Prop :=
  ∀ (e : ℝ) (k : ℕ), 10 < e → k ≤ 8 → ∃ q : ℝ, 0 < q ∧ q < 1 ∧ pow (fin e) (lit (-1) / lit (2 * k + 2 : ℕ)) = fin q

section
variable (P : BsdParams XR V) (pow : XR → XR → XR) (ε d m : ℝ) (hops : P.ops = ops pow (fin ε)) (hP : PowOk bsdRules pow (fin ε))
  (hN : P.control = true → PowNeg pow) (hchk : ∀ x d e dt, (P.checker.error x d e dt).2.NonNeg)
  (hfin : P.control = true → ∀ x d e dt, (P.checker.error x d e dt).2 ≠ inf false)

include hops hP hN hchk hfin

/-- the proposal after a try: the old step times a positive factor, below 1 for a rejected try -/
theorem TryBreak.newH_xr (s : BsdState XR V W) (hdt : s.dt = fin d) (r : Bool) (b : BsBreak XR)
    (h : TryBreak P s (fun e => e.NonNeg ∧ (P.control = true → e ≠ inf false)) r b) :
    ∃ q : ℝ, 0 < q ∧ b.newH = fin (d * q) ∧ (r = false → q < 1) := by
  obtain ⟨hr, h⟩ := h
  rcases h with ⟨k, e, -, hL⟩ | ⟨rfl, k, e, hk, ⟨he, he'⟩, hc, hlt, hn⟩
  · rw [hdt, hops] at hL
    have hL' : LoopEnd bsdRules (ops pow (fin ε)) s.ctl (fin d) XR.NonNeg k e b := by
      refine ⟨hL.k1, hL.k2, hL.lo, hL.hi, fun h => ?_, fun h => ?_⟩
      · obtain ⟨a, j, e', h1, h2, h3, h4⟩ := hL.rej h
        exact ⟨a, j, e', h1, h2, h3.1, h4⟩
      · obtain ⟨a, j, e', h1, h2, h3, h4⟩ := hL.acc h
        exact ⟨a, j, e', h1, h2, h3.1, h4⟩
    obtain ⟨q, q0, hq, hq1⟩ := hL'.newH_xr hP (fun i => by show 0 < bsdSteps i; unfold bsdSteps; omega)
      (fun h a b hb => by show (fin h * fin a / fin b : XR) = _; rw [XR.fin_mul, XR.fin_div hb, mul_div_assoc])
    refine ⟨q, q0, hq, fun h => ?_⟩
    rw [h] at hr
    have := hq1 (by simpa using hr)
    linarith
  · rw [hops] at hlt hn
    have hctl : P.control = true := by
      rcases hc with rfl | hc
      · exfalso
        have : decide (((10 : ℤ) : ℝ) < ((0 : ℤ) : ℝ)) = true := hlt
        norm_num at this
      · exact hc
    cases e with
    | nan => exact he.elim
    | inf s' =>
      have hs : s' = false := he
      subst hs
      exact absurd rfl (he' hctl)
    | fin x =>
      have hx : (((10 : ℤ) : ℝ) < x) := of_decide_eq_true hlt
      obtain ⟨q, q0, q1, hq⟩ := hN hctl x k (by exact_mod_cast hx) hk
      refine ⟨q, q0, ?_, fun _ => q1⟩
      rw [hn, hdt]
      show fin d * pow (fin x) _ = _
      rw [hq, XR.fin_mul]

/-- C24, step size (partial: forwards in time).  A try with step size `d > 0` leaves a positive step; a failed one reduces it; after a failed try the next
one does not make it longer; the limit `m` (0: none) is observed, except that a step at most `ε` above it may be kept. -/
theorem bulirsch_stoer_dense_step_size_partial (hε : 0 ≤ ε) (hd : 0 < d) (hm : P.maxDt = fin m) (hm0 : 0 ≤ m) {sys : Sys XR V W} (hs : sys.Defined)
    (s : BsdState XR V W) (hv : BsdOrder s.ctl) (hdt : s.dt = fin d) :
    (bsdTry P sys s).Sat (fun r s' => ∃ d', s'.dt = fin d' ∧ 0 < d' ∧ (r = false → d' < d) ∧ (s.ctl.lastRej = true → d' ≤ d) ∧
      (m ≠ 0 → d' ≤ m ∨ (s.ctl.lastRej = true ∧ d' = d ∧ d ≤ m + ε))) (fun _ s' => s'.dt = s.dt) True := by
  have hmd : m = 0 ∨ 0 < m * d := by
    rcases hm0.eq_or_lt with h | h
    · exact Or.inl h.symm
    · exact Or.inr (mul_pos h hd)
  have hT := bsTooLong_xr P.toBsParams pow ε d m hops hm hmd
  refine (bsdTry_sat P hs s (fun e => e.NonNeg ∧ (P.control = true → e ≠ inf false))
    ⟨by show (0 : ℝ) ≤ ((0 : ℤ) : ℝ); simp, fun _ => by rw [XR.lit_fin]; simp⟩ (fun v => ⟨hchk _ _ _ _, fun h => hfin h _ _ _ _⟩) hv).mono ?_ (fun _ _ h => h.dt) (fun h => h)
  rw [hdt]
  rintro r s' (⟨hl, rfl, rfl⟩ | ⟨hl, hE⟩)
  · obtain ⟨hm1, hlt⟩ := hT.1 hl
    have hm2 : 0 < m := lt_of_le_of_ne hm0 (Ne.symm hm1)
    rw [abs_of_pos hd, abs_of_pos hm2] at hlt
    exact ⟨m, hm, hm2, fun _ => by linarith, fun _ => by linarith, fun _ => Or.inl le_rfl⟩
  · obtain ⟨b, hb, hdt'⟩ := hE.dt
    obtain ⟨q, q0, hq, hq1⟩ := hb.newH_xr P pow ε d hops hP hN hchk hfin s hdt r b
    have hnew : ∃ q', 0 < q' ∧ q' ≤ q ∧ bsNewDt P.toBsParams b = fin (d * q') ∧ (m ≠ 0 → |d * q'| ≤ |m|) := by
      unfold bsNewDt
      rw [hops, hm, hq]
      show ∃ q', 0 < q' ∧ q' ≤ q ∧ (if decide (m = ((0 : ℤ) : ℝ)) = true then fin (d * q) else (ops pow (fin ε)).time.minAbs (fin m) (fin (d * q))) = fin (d * q') ∧ _
      by_cases hm0 : m = 0
      · rw [if_pos (decide_eq_true (by exact_mod_cast hm0))]
        exact ⟨q, q0, le_rfl, rfl, fun h => absurd hm0 h⟩
      · rw [if_neg (by simpa using hm0)]
        obtain ⟨q', a1, a2, a3, a4⟩ := minAbs_xr pow ε d q m q0 (hmd.resolve_left hm0)
        exact ⟨q', a1, a2, a3, fun _ => a4⟩
    obtain ⟨q', q0', hqq, hq', hlim⟩ := hnew
    have hup : bsdUpdates P s.ctl b.newH s.dt = (!s.ctl.lastRej || decide (d * q < d)) := by
      unfold bsdUpdates
      rw [hops, hq, hdt]
      rfl
    rw [hup, hq', hdt] at hdt'
    by_cases hu : (!s.ctl.lastRej || decide (d * q < d)) = true
    · rw [if_pos hu] at hdt'
      have hpos : 0 < d * q' := by positivity
      refine ⟨d * q', hdt', hpos, fun hr => ?_, fun h => ?_, fun h => Or.inl ?_⟩
      · have := hq1 hr
        nlinarith
      · rw [h] at hu
        have : d * q < d := by simpa using hu
        nlinarith
      · have := hlim h
        rwa [abs_of_pos hpos, abs_of_nonneg hm0] at this
    · rw [if_neg hu] at hdt'
      simp only [Bool.or_eq_true, Bool.not_eq_true', decide_eq_true_eq, not_or, Bool.not_eq_false, not_lt] at hu
      refine ⟨d, hdt', hd, fun hr => ?_, fun _ => le_rfl, fun h => Or.inr ⟨hu.1, rfl, ?_⟩⟩
      · have := hq1 hr
        nlinarith [hu.2]
      · have := hT.2 hl h
        rwa [abs_of_pos hd, abs_of_nonneg hm0] at this

/-- C24: backwards in time the step is not reduced any more once a try was rejected: from the second rejected try on it is left as it is, whatever the
errors (no limit). -/
theorem bsd_backward_stuck (hd : d < 0) (hm : P.maxDt = fin 0) {sys : Sys XR V W} (hs : sys.Defined)
    (s : BsdState XR V W) (hv : BsdOrder s.ctl) (hdt : s.dt = fin d) (hrej : s.ctl.lastRej = true) :
    (bsdTry P sys s).Sat (fun r s' => r = false → s'.dt = s.dt ∧ s'.t = s.t ∧ s'.cur = s.cur ∧ s'.curD = s.curD ∧ s'.ctl.lastRej = true)
      (fun _ _ => True) True := by
  have hT := bsTooLong_xr P.toBsParams pow ε d 0 hops hm (Or.inl rfl)
  refine (bsdTry_sat P hs s (fun e => e.NonNeg ∧ (P.control = true → e ≠ inf false))
    ⟨by show (0 : ℝ) ≤ ((0 : ℤ) : ℝ); simp, fun _ => by rw [XR.lit_fin]; simp⟩ (fun v => ⟨hchk _ _ _ _, fun h => hfin h _ _ _ _⟩) hv).mono ?_
    (fun _ _ _ => trivial) (fun h => h)
  rw [hdt]
  rintro r s' (⟨hl, -, -⟩ | ⟨hl, hE⟩) hr
  · exact absurd rfl (hT.1 hl).1
  · obtain ⟨b, hb, hdt'⟩ := hE.dt
    obtain ⟨q, q0, hq, hq1⟩ := hb.newH_xr P pow ε d hops hP hN hchk hfin s hdt r b
    have hup : bsdUpdates P s.ctl b.newH s.dt = false := by
      unfold bsdUpdates
      rw [hops, hq, hdt, hrej]
      have : ¬ d * q < d := by
        have := hq1 hr
        nlinarith
      simpa [XR.lt, ops] using this
    rw [hup, if_neg (by simp), hdt] at hdt'
    exact ⟨hdt', (hE.rej hr).1, hE.cur, hE.curD, by rw [hE.lastRej, hr]; rfl⟩

end

/-- `d` itself, or a proposal that `calc_h_opt` makes for a try with step size `d` -/
def BsdProposal (P : BsdParams XR V) (d h : ℝ) : Prop :=
  h = d ∨ ∃ e j, 1 ≤ j ∧ j ≤ 8 ∧ e.NonNeg ∧ fin h = bsCalcHopt bsdRules P.ops (fin d) e j

/-- C24: backwards in time, if the errors are not below 1 for the step size `d` and for the step sizes proposed after the first try, then `do_step` never returns,
however small the errors are for shorter steps: all tries but the first are made with the same step size, until `failed_step_checker` throws. -/
theorem bsd_backward_never_returns (P : BsdParams XR V) (pow : XR → XR → XR) (ε d : ℝ) (hops : P.ops = ops pow (fin ε)) (hP : PowOk bsdRules pow (fin ε))
    (hctl : P.control = false) (hd : d < 0) (hm : P.maxDt = fin 0) (hchk : ∀ x d e dt, (P.checker.error x d e dt).2.NonNeg)
    (hbad : ∀ x v e h, BsdProposal P d h → XR.lt (P.checker.error x v e (fin h)).2 (fin 1) = false)
    {sys : Sys XR V W} (hs : sys.Defined) (s : BsdState XR V W) (hv : BsdOrder s.ctl) (hdt : s.dt = fin d) :
    (bsdDoStep P sys s).Sat (fun _ _ => False) (fun _ s' => s'.cur = s.cur ∧ s'.t = s.t ∧ ∃ h, BsdProposal P d h ∧ s'.dt = fin h) True := by
  have h1 : ∀ e : XR, P.ops.lt e (lit 1) = XR.lt e (fin 1) := by intro e; rw [XR.lit_fin, hops]; simp [ops]
  unfold bsdDoStep
  have hbegin : (bsdBegin sys s).Sat (fun _ s1 => s1.cur = s.cur ∧ s1.t = s.t ∧ s1.dt = s.dt ∧ s1.ctl = s.ctl)
      (fun _ s1 => s1.dt = s.dt ∧ s1.cur = s.cur ∧ s1.t = s.t) True := by
    unfold bsdBegin
    rw [M.bind_ok (m := M.get) (w' := s) (a := s) rfl]
    split
    · rw [bind_assoc]
      refine Res.Sat.bind ((bsdCall_sat hs _ _ s).mono ?_ ?_ (fun _ => trivial))
      · rintro d s1 ⟨-, c2⟩
        rw [c2]
        exact ⟨rfl, rfl, rfl, rfl⟩
      · rintro e s1 ⟨-, c2⟩
        rw [c2]
        exact ⟨rfl, rfl, rfl⟩
    · exact ⟨rfl, rfl, rfl, rfl⟩
  refine Res.Sat.bind (hbegin.mono ?_ (fun _ _ h => ⟨h.2.1, h.2.2, d, Or.inl rfl, h.1.trans hdt⟩) (fun h => h))
  rintro - s1 ⟨b1, b2, b3, b4⟩
  refine Res.Sat.bind ?_
  have hloop := whileM_sat (cond := fun r : Bool × ℕ => !r.1) (body := bsdBody P sys)
    (fun r s' => r.1 = false ∧ s'.cur = s.cur ∧ s'.t = s.t ∧ (∃ h, BsdProposal P d h ∧ s'.dt = fin h ∧ h < 0 ∧ (s'.ctl.lastRej = false → h = d)) ∧ BsdOrder s'.ctl)
    (E := fun _ s' => s'.cur = s.cur ∧ s'.t = s.t ∧ ∃ h, BsdProposal P d h ∧ s'.dt = fin h) ?_
    (s := (false, 0)) (w := s1) ⟨rfl, b1, b2, ⟨d, Or.inl rfl, b3.trans hdt, hd, fun _ => rfl⟩, by rw [b4]; exact hv⟩
  · refine hloop.mono ?_ (fun _ _ h => h) (fun h => h)
    rintro r s2 ⟨⟨h1, -⟩, h2⟩
    rw [h1] at h2
    cases h2
  · rintro r s2 ⟨h0, h2, h3, ⟨h, hp, h4, hneg, h5⟩, h6⟩ -
    unfold bsdBody
    have hne : P.control = true → False := by rw [hctl]; simp
    have hb := bsdTry_sat P hs s2 XR.NonNeg (by show (0 : ℝ) ≤ ((0 : ℤ) : ℝ); simp) (fun _ => hchk _ _ _ _) h6
    refine Res.Sat.bind (hb.mono ?_ ?_ (fun h => trivial))
    · intro ok s3 c2
      have hT := bsTooLong_xr P.toBsParams pow ε h 0 hops hm (Or.inl rfl)
      rw [h4] at c2
      rcases c2 with ⟨hl, -, -⟩ | ⟨-, hE⟩
      · exact absurd rfl (hT.1 hl).1
      · have hok : ok = false := by
          cases ok with
          | false => rfl
          | true =>
            exfalso
            obtain ⟨-, k, Ss, w, -, hA, -⟩ := hE.acc rfl
            have := hA.2.2.2.2
            rw [h4, h1, hbad _ _ _ _ hp] at this
            cases this
        subst hok
        obtain ⟨b, ⟨hbr, hb⟩, hdt'⟩ := hE.dt
        have hb' : ∃ e j, 1 ≤ j ∧ j ≤ 8 ∧ e.NonNeg ∧ XR.lt e (fin 1) = false ∧ b.newH = bsCalcHopt bsdRules P.ops (fin h) e j := by
          rcases hb with ⟨k, e, -, hL⟩ | ⟨-, k, e, hk, he, hc, hlt, -⟩
          · obtain ⟨-, j, e', g1, g2, g3, g4, g5⟩ := hL.rej (by simpa using hbr)
            exact ⟨e', j, g1, g2, g3, by rw [← h1]; exact g4, by rw [← h4]; exact g5⟩
          · exfalso
            rcases hc with rfl | hc
            · rw [hops] at hlt
              have : decide (((10 : ℤ) : ℝ) < ((0 : ℤ) : ℝ)) = true := hlt
              norm_num at this
            · exact hne hc
        obtain ⟨e, j, g1, g2, g3, g4, g5⟩ := hb'
        obtain ⟨q, q0, q1, q2⟩ := bsCalcHopt_xr bsdRules pow (fin ε) hP h e g3 j g1 g2
        have q2 := q2 g4
        have hnewdt : bsNewDt P.toBsParams b = b.newH := by
          unfold bsNewDt
          rw [hops, hm, if_pos]
          exact decide_eq_true (by simp)
        have hinv : ∃ h', BsdProposal P d h' ∧ s3.dt = fin h' ∧ h' < 0 := by
          rw [h4] at hdt'
          by_cases hu : bsdUpdates P s2.ctl b.newH (fin h) = true
          · rw [if_pos hu, hnewdt] at hdt'
            have hg : b.newH = fin (h * q) := by rw [g5, hops]; exact q1
            have hlr : s2.ctl.lastRej = false := by
              by_contra hc
              unfold bsdUpdates at hu
              rw [Bool.not_eq_false] at hc
              rw [hops, hg, hc] at hu
              have : h * q < h := by simpa [XR.lt, ops] using hu
              nlinarith
            refine ⟨h * q, Or.inr ⟨e, j, g1, g2, g3, ?_⟩, hdt'.trans hg, by nlinarith⟩
            rw [← hg, g5, h5 hlr]
          · rw [if_neg hu] at hdt'
            exact ⟨h, hp, hdt', hneg⟩
        obtain ⟨h', i1, i2, i3⟩ := hinv
        rw [M.bind_ok (m := M.modify _) (a := ()) (w' := s3.setCtl { s3.ctl with first := false }) rfl]
        refine Res.Sat.bind ?_
        have e1 : s3.cur = s.cur := hE.cur.trans h2
        have e2 : s3.t = s.t := (hE.rej rfl).1.trans h3
        unfold failedStepChecker
        split
        · exact ⟨e1, e2, h', i1, i2⟩
        · refine ⟨rfl, e1, e2, ⟨h', i1, i2, i3, fun hc => ?_⟩, hE.lo, hE.hi, fun h => (nomatch h)⟩
          have : s3.ctl.lastRej = false := hc
          rw [hE.lastRej] at this
          cases this
    · intro e s3 c2
      exact ⟨c2.cur.trans h2, c2.t.trans h3, h, hp, c2.dt.trans h4⟩

/-! ## Concrete cases -/

theorem XR.pow_ok_dense (eps : XR) : PowOk bsdRules XR.pow eps := by
  have hex : ∀ k : ℕ, (lit 1 / lit (bsdSteps (k - 1) : ℕ) : XR) = fin (1 / (bsdSteps (k - 1) : ℕ)) := by
    intro k
    rw [XR.lit_fin, XR.lit_fin, XR.fin_div (by unfold bsdSteps; push_cast; positivity)]
    push_cast
    rfl
  refine ⟨?_, ?_, ?_⟩
  · intro i h1 h2
    obtain ⟨m, m0, m1, hm⟩ := (XR.pow_ok eps).facmin i h1 h2
    exact ⟨m, m0, m1, hm⟩
  · intro a k _ _ ha
    show XR.le (fin 0) (XR.pow a (lit 1 / lit (bsdSteps (k - 1) : ℕ))) = true
    rw [hex]
    cases a with
    | nan => cases ha
    | inf s =>
      cases s with
      | true => cases ha
      | false => rfl
    | fin a => exact decide_eq_true (Real.rpow_nonneg (of_decide_eq_true ha) _)
  · intro a k _ _ ha
    show XR.le (fin 1) (XR.pow a (lit 1 / lit (bsdSteps (k - 1) : ℕ))) = true
    rw [hex]
    cases a with
    | nan => cases ha
    | inf s =>
      cases s with
      | true => cases ha
      | false => rfl
    | fin a => exact decide_eq_true (Real.one_le_rpow (of_decide_eq_true ha : (1 : ℝ) < a).le (by positivity))

theorem XR.pow_neg : PowNeg XR.pow := by
  intro e k he _
  have : (lit (-1) / lit (2 * k + 2 : ℕ) : XR) = fin (-1 / (2 * k + 2 : ℕ)) := by
    rw [XR.lit_fin, XR.lit_fin, XR.fin_div (by push_cast; positivity)]
    push_cast
    rfl
  rw [this]
  refine ⟨e ^ (-1 / ((2 * k + 2 : ℕ) : ℝ)), Real.rpow_pos_of_pos (by linarith) _, Real.rpow_lt_one_of_one_lt_of_neg (by linarith) ?_, rfl⟩
  exact div_neg_of_neg_of_pos (by norm_num) (by positivity)

/-- the proposals for a step `d` are not below `d/200` -/
theorem BsdProposal.large {P : BsdParams XR V} {ε : ℝ} (hops : P.ops = ops XR.pow (fin ε)) {d h : ℝ} (hd : d < 0) (hp : BsdProposal P d h) : h ≤ d / 200 := by
  rcases hp with rfl | ⟨e, j, h1, h2, h3, h4⟩
  · linarith
  · rw [hops] at h4
    obtain ⟨m, m0, m1, hm⟩ := (XR.pow_ok_dense (fin ε)).facmin j h1 h2
    have hm' : 1 / 50 ≤ m := by
      have hex : (lit 1 / lit (2 * j + 1) : XR) = fin (1 / (2 * j + 1)) := by
        rw [XR.lit_fin, XR.lit_fin, XR.fin_div (by exact_mod_cast (by omega : (2 * (j : ℤ) + 1) ≠ 0))]
        push_cast
        rfl
      have : bsFacmin (ops XR.pow (fin ε)) j = fin ((2 / 100 : ℝ) ^ (1 / (2 * (j : ℝ) + 1))) := by
        unfold bsFacmin
        rw [hex, XR.frac_fin _ _ (by norm_num)]
        show fin _ = _
        norm_num
      rw [this] at hm
      injection hm with hm
      rw [← hm]
      calc (1 / 50 : ℝ) = (2 / 100) ^ (1 : ℝ) := by norm_num
        _ ≤ _ := Real.rpow_le_rpow_of_exponent_ge (by norm_num) (by norm_num) (by
          rw [div_le_one (by positivity)]
          have : (0 : ℝ) ≤ j := by positivity
          linarith)
    obtain ⟨q, q0, hq, -⟩ := bsCalcHopt_xr bsdRules XR.pow (fin ε) (XR.pow_ok_dense _) d e h3 j h1 h2
    rw [hq] at h4
    injection h4 with h4
    have hinv : (lit 1 / fin m : XR) = fin (1 / m) := by rw [XR.lit_fin, XR.fin_div m0.ne']; simp
    have h4' : (fin m / lit 4 : XR) = fin (m / 4) := by rw [XR.lit_fin, XR.fin_div (by norm_num)]; norm_num
    have hq4 : m / 4 ≤ q := by
      have hm1 : 1 ≤ 1 / m := by rw [le_div_iff₀ m0]; linarith
      have hd' : (fin d * bsFac bsdRules (ops XR.pow (fin ε)) e j : XR) = fin (d * q) := hq
      have key : ∀ x : XR, (fin d * x : XR) = fin (d * q) → x = fin q := by
        intro x hx
        cases x with
        | nan => cases hx
        | inf s =>
          have : (fin d * inf s : XR) = if d = 0 then nan else inf (xor s (negative d)) := rfl
          rw [this, if_neg hd.ne] at hx
          cases hx
        | fin x =>
          rw [XR.fin_mul] at hx
          injection hx with hx
          rw [mul_left_cancel₀ hd.ne hx]
      have := key _ hd'
      unfold bsFac at this
      rw [hm, hinv, h4'] at this
      split at this
      · injection this with this
        linarith
      · generalize (ops XR.pow (fin ε)).min (fin (1 / m)) _ = y at this
        have hmax : (ops XR.pow (fin ε)).max (fin (m / 4)) y = if XR.lt (fin (m / 4)) y = true then y else fin (m / 4) := rfl
        rw [hmax] at this
        split at this
        · rename_i hlt
          rw [this] at hlt
          have : m / 4 < q := of_decide_eq_true hlt
          linarith
        · injection this with this
          linarith
    rw [h4]
    nlinarith

/-- a stepper with a checker that accepts only steps backwards shorter than `1/200` -/
noncomputable def xrPicky (ε : ℝ) : BsdParams XR (List XR) :=
  ⟨⟨ops XR.pow (fin ε), ⟨fun _ _ er dt => (er, if XR.le dt (fin (-1 / 200)) then fin 2 else fin 0)⟩, fin 0⟩, false⟩

/-- Non-vacuity of `bsd_backward_never_returns`: a step `-1` of `x' = x` with a checker that would accept any step shorter than `1/200`. -/
example (ops' : StateOps XR (List XR)) (ε d : ℝ) (hd : d = -1) (x : List XR) (s : BsdState XR (List XR) Unit)
    (h : s = { bsdConstruct s with cur := x, t := fin 0, dt := fin d }) :
    (bsdDoStep (xrPicky ε) idSys s).Sat (fun _ _ => False)
      (fun _ s' => s'.cur = s.cur ∧ s'.t = s.t ∧ ∃ h, BsdProposal (xrPicky ε) d h ∧ s'.dt = fin h) True := by
  refine bsd_backward_never_returns (xrPicky ε) XR.pow ε d rfl (XR.pow_ok_dense _) rfl (by rw [hd]; norm_num) rfl ?_ ?_ idSys_defined s ?_ ?_
  · intro x v e dt
    show (if XR.le dt (fin (-1 / 200)) then fin 2 else fin 0 : XR).NonNeg
    split
    · show (0 : ℝ) ≤ 2; norm_num
    · exact le_refl (0 : ℝ)
  · intro x v e h hp
    have := hp.large (ε := ε) rfl (by rw [hd]; norm_num)
    show XR.lt (if XR.le (fin h) (fin (-1 / 200)) then fin 2 else fin 0) (fin 1) = false
    have hle : XR.le (fin h) (fin (-1 / 200)) = true := decide_eq_true (by rw [hd] at this; exact this)
    rw [if_pos hle]
    exact decide_eq_false (by norm_num)
  · rw [h]; exact ⟨by show 2 ≤ 4; omega, by show 4 ≤ 7; omega, fun _ => by show 4 ≤ 6; omega⟩
  · rw [h]

/-- the default configuration, with the error of the interpolation controlled -/
noncomputable def xrBsd (ε m a : ℝ) : BsdParams XR (List XR) := ⟨xrBs ε m a, false⟩

/-- Non-vacuity of `bulirsch_stoer_dense_step_size_partial`: the default configuration, limited to 1, for `x' = x`, the step `1/10` after a rejected one. -/
example (ops' : StateOps XR (List XR)) (ε a d m : ℝ) (hε : 0 ≤ ε) (hd : d = 1 / 10) (hm : m = 1) (s : BsdState XR (List XR) Unit)
    (h1 : s.ctl = ⟨5, false, true, fin 0⟩) (h2 : s.dt = fin d) :
    (bsdTry (xrBsd ε m a) idSys s).Sat (fun r s' => ∃ d', s'.dt = fin d' ∧ 0 < d' ∧ (r = false → d' < d) ∧ (s.ctl.lastRej = true → d' ≤ d) ∧
      (m ≠ 0 → d' ≤ m ∨ (s.ctl.lastRej = true ∧ d' = d ∧ d ≤ m + ε))) (fun _ s' => s'.dt = s.dt) True :=
  bulirsch_stoer_dense_step_size_partial (xrBsd ε m a) XR.pow ε d m rfl (XR.pow_ok_dense _) (fun _ => XR.pow_neg)
    (fun _ _ _ _ => XR.default_nonneg _ _ _ _ _ _ _ _ _ _) (fun h => nomatch h) hε (by rw [hd]; norm_num) rfl (by rw [hm]; norm_num) idSys_defined s
    (by rw [h1]; exact ⟨by show 2 ≤ 5; omega, by show 5 ≤ 7; omega, fun h => nomatch h⟩) h2

end Verif
