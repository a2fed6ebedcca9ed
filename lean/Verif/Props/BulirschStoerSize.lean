import Verif.Lemmas.BulirschStoerSize
import Verif.Props.BulirschStoer
import Verif.Props.ErrorChecker

/-!
# C23: the step size of `bulirsch_stoer`

The arithmetic is that of real numbers with infinities and NaN; the error checker may return anything but NaN and negative numbers (the default
checker does so, `XR.default_nonneg`), and the state type and its operations are arbitrary.
-/

namespace Verif
set_option linter.unusedSectionVars false
open XR
variable {V W : Type} [StateOps XR V]

/-- the error a stage returns comes from the error checker -/
theorem bsStage_result {K : Type} [Add K] [Sub K] [Mul K] [Div K] [Neg K] [IntCast K] [StateOps K V] (P : BsParams K V) {sys : Sys K V W} (hs : sys.Defined)
    (inp dxdt : Loc) (t : K) (out : Loc) (dt : K) (k : ℕ)
    (hk1 : 1 ≤ k) (hk2 : k ≤ 8) (c : BsCtl K) (s : BsState K V W) (hc : s.ctl = c) :
    (bsStage P sys inp dxdt t out dt k s).Sat (fun e s' => s'.ctl = c ∧ ∃ x d er, e = (P.checker.error x d er dt).2) (fun _ s' => s'.ctl = c) True := by
  unfold bsStage
  rw [M.bind_ok (chk_ok (by omega) _)]
  refine Res.Sat.bind ((onHeap_keeps hc (midpointImpl_sat hs _ _ _ _ _ _ _)).mono (fun _ s1 h1 => ?_) (fun _ _ h => h) (fun h => h))
  refine Res.Sat.bind ((onHeap_keeps h1 (extrapolate_sat _ _ _)).mono (fun _ s2 h2 => ?_) (fun _ _ h => h) (fun h => h))
  exact ⟨h2, _, _, _, rfl⟩

/-- the outcome of a try for errors that satisfy `PE` -/
theorem bsTry4_loopEnd {K : Type} [Add K] [Sub K] [Mul K] [Div K] [Neg K] [IntCast K] [StateOps K V] (P : BsParams K V) (resized : Bool)
    {sys : Sys K V W} (hs : sys.Defined) (inp dxdt : Loc) (t : K) (out : Loc) (dt : K) (PE : K → Prop)
    (hPE : ∀ x d e, PE (P.checker.error x d e dt).2) (s : BsState K V W) (hv : s.ctl.Valid) :
    (bsTry4 P resized sys inp dxdt t out dt s).Sat
      (fun r _ => (bsTooLong P dt = true ∧ r = ⟨false, t, P.maxDt⟩) ∨
        (bsTooLong P dt = false ∧ ∃ b k e, r = bsResult P (bsPrepare P resized dt s.ctl) b t dt ∧ PE e ∧
          LoopEnd bsRules P.ops (bsPrepare P resized dt s.ctl) dt PE k e b)) (fun _ _ => True) True := by
  refine (bsTry4_sat P resized sys inp dxdt t out dt s hv PE (fun _ s' => s'.ctl = bsPrepare P resized dt s.ctl) (fun _ _ _ => True)
    (fun _ _ => True) ?_ ?_).mono ?_ (fun _ _ h => h) (fun h => h)
  · exact (onHeap_keeps rfl (midpointImpl_sat hs _ _ _ _ _ _ _)).mono (fun _ _ h => h) (fun _ _ _ => trivial) (fun h => h)
  · intro k s' h1 h2 hI
    refine (bsStage_result P hs inp dxdt t out dt k h1 h2 _ s' hI).mono ?_ (fun _ _ _ => trivial) (fun h => h)
    rintro e s'' ⟨h, x, d, er, rfl⟩
    exact ⟨h, trivial, hPE _ _ _⟩
  · rintro r s' (⟨h1, h2, -⟩ | ⟨h0, b, k, e, s1, h1, -, -, -, h2, h3⟩)
    · exact Or.inl ⟨h1, h2⟩
    · exact Or.inr ⟨h0, b, k, e, h1, h2, h3⟩

theorem bsTooLong_xr (P : BsParams XR V) (pow : XR → XR → XR) (ε d m : ℝ) (hops : P.ops = ops pow (fin ε)) (hm : P.maxDt = fin m)
    (hmd : m = 0 ∨ 0 < m * d) : (bsTooLong P (fin d) = true → m ≠ 0 ∧ ε < |d| - |m|) ∧ (bsTooLong P (fin d) = false → m ≠ 0 → |d| ≤ |m| + ε) := by
  have he : bsTooLong P (fin d) = (!decide (m = 0) && (if decide (0 < d) = true then decide (ε < d - m) else decide (ε < m - d))) := by
    unfold bsTooLong TimeArith.lessWithSign
    rw [hops, hm]
    show (!decide (m = ((0 : ℤ) : ℝ)) && (if decide (((0 : ℤ) : ℝ) < d) = true then XR.lt (fin ε) (fin d - fin m) else XR.lt (fin ε) (fin m - fin d))) = _
    rw [XR.fin_sub, XR.fin_sub]
    simp [XR.lt]
  rw [he]
  rcases hmd with hm0 | hmd
  · simp [hm0]
  · have hm0 : m ≠ 0 := by rintro rfl; simp at hmd
    rcases lt_or_ge 0 d with h | h
    · have hmp : 0 < m := by
        rcases pos_and_pos_or_neg_and_neg_of_mul_pos hmd with h' | h'
        · exact h'.1
        · linarith [h'.2]
      rw [abs_of_pos h, abs_of_pos hmp, if_pos (decide_eq_true h)]
      simp only [hm0, decide_false, Bool.not_false, Bool.true_and, decide_eq_true_eq, decide_eq_false_iff_not, ne_eq, not_false_eq_true, true_and, not_lt,
        true_implies]
      exact ⟨fun h => h, fun h => by linarith⟩
    · have hneg : d < 0 ∧ m < 0 := by
        rcases pos_and_pos_or_neg_and_neg_of_mul_pos hmd with h' | h'
        · linarith [h'.2]
        · exact ⟨h'.2, h'.1⟩
      rw [abs_of_neg hneg.1, abs_of_neg hneg.2, if_neg (by simpa using h)]
      simp only [hm0, decide_false, Bool.not_false, Bool.true_and, decide_eq_true_eq, decide_eq_false_iff_not, ne_eq, not_false_eq_true, true_and, not_lt,
        true_implies]
      exact ⟨fun h => by linarith, fun h => by linarith⟩

section
variable (P : BsParams XR V) (pow : XR → XR → XR) (ε d m : ℝ) (hops : P.ops = ops pow (fin ε)) (hP : PowOk bsRules pow (fin ε))
  (hε : 0 ≤ ε) (hchk : ∀ x d e dt, (P.checker.error x d e dt).2.NonNeg) (hm : P.maxDt = fin m) (hmd : m = 0 ∨ 0 < m * d)

include hops hP hε hchk hm hmd

/-- C23, step size, `try_step( sys , in , dxdt , t , out , dt )`, whatever the aliasing. -/
theorem bulirsch_stoer_step_size4 (hd : d ≠ 0) (resized : Bool) {sys : Sys XR V W} (hs : sys.Defined) (inp dxdt : Loc) (t : XR) (out : Loc) (s : BsState XR V W)
    (hv : s.ctl.Valid) :
    (bsTry4 P resized sys inp dxdt t out (fin d) s).Sat (fun r _ => BsStepSize ε d m (bsPrepare P resized (fin d) s.ctl).lastRej r) (fun _ _ => True) True := by
  refine (bsTry4_loopEnd P resized hs inp dxdt t out (fin d) XR.NonNeg (fun x d e => hchk x d e _) s hv).mono ?_ (fun _ _ h => h) (fun h => h)
  have hT := bsTooLong_xr P pow ε d m hops hm hmd
  rintro r - (⟨hl, rfl⟩ | ⟨hl, b, k, e, rfl, -, hL⟩)
  · obtain ⟨hm0, hlt⟩ := hT.1 hl
    have hmd' : 0 < m * d := hmd.resolve_left hm0
    have e : d * (m / d) = m := by field_simp
    have q0 : 0 < m / d := by
      have : m / d = m * d / (d * d) := by field_simp
      rw [this]
      exact div_pos hmd' (mul_self_pos.mpr hd)
    have habs : |m| < |d| := by linarith
    refine ⟨m, hm, fun h => (nomatch h), fun _ => Or.inl ⟨m / d, q0, ?_, e.symm⟩, fun _ => habs.le, fun _ => Or.inl le_rfl⟩
    have : |m / d| < 1 := by rw [abs_div, div_lt_one (abs_pos.mpr hd)]; exact habs
    rwa [abs_of_pos q0] at this
  · rw [hops] at hL
    obtain ⟨q, q0, hq, hq1⟩ := hL.newH_xr hP (fun i => by show 0 < interval i; unfold interval; omega)
      (fun h a b hb => by show (fin h * (fin a / fin b) : XR) = _; rw [XR.fin_div hb, XR.fin_mul])
    generalize bsPrepare P resized (fin d) s.ctl = c at hL ⊢
    -- the limited step
    have hnew : ∃ q', 0 < q' ∧ q' ≤ q ∧ bsNewDt P b = fin (d * q') ∧ (m ≠ 0 → |d * q'| ≤ |m|) := by
      unfold bsNewDt
      rw [hops, hm, hq]
      show ∃ q', 0 < q' ∧ q' ≤ q ∧ (if decide (m = ((0 : ℤ) : ℝ)) = true then fin (d * q) else (ops pow (fin ε)).time.minAbs (fin m) (fin (d * q))) = fin (d * q') ∧ _
      by_cases hm0 : m = 0
      · rw [if_pos (decide_eq_true (by exact_mod_cast hm0))]
        exact ⟨q, q0, le_rfl, rfl, fun h => absurd hm0 h⟩
      · rw [if_neg (by simpa using hm0)]
        obtain ⟨q', a1, a2, a3, a4⟩ := minAbs_xr pow ε d q m q0 (hmd.resolve_left hm0)
        exact ⟨q', a1, a2, a3, fun _ => a4⟩
    obtain ⟨q', q0', hqq, hq', hlim⟩ := hnew
    have hup : bsUpdates P c b (fin d) = (!c.lastRej || decide (ε < (1 - q) * |d|)) := by
      unfold bsUpdates
      rw [hops, hq, lessWithSign_xr]
    have hd0 := abs_pos.mpr hd
    unfold BsStepSize bsResult
    dsimp only
    rw [hup, hq']
    by_cases hu : (!c.lastRej || decide (ε < (1 - q) * |d|)) = true
    · rw [if_pos hu]
      have hlast : c.lastRej = true → ε < (1 - q) * |d| := by
        intro h
        rw [h] at hu
        simpa using hu
      refine ⟨d * q', rfl, fun _ => ⟨q', q0', rfl⟩, fun hr => Or.inl ⟨q', q0', ?_, rfl⟩, fun h => ?_, fun h => Or.inl (hlim h)⟩
      · have hb : b.reject = true := by simpa using hr
        have := hq1 hb
        linarith
      · have h1 := hlast h
        have h2 : q < 1 := by
          by_contra hq2
          have : (1 - q) * |d| ≤ 0 := mul_nonpos_of_nonpos_of_nonneg (by linarith) hd0.le
          linarith
        rw [abs_mul, abs_of_pos q0']
        nlinarith
    · rw [if_neg hu]
      simp only [Bool.or_eq_true, Bool.not_eq_true', decide_eq_true_eq, not_or, Bool.not_eq_false, not_lt] at hu
      refine ⟨d, rfl, fun _ => ⟨1, one_pos, (mul_one d).symm⟩, fun hr => Or.inr ⟨hu.1, ?_, rfl⟩, fun _ => le_rfl, fun h => Or.inr ⟨hu.1, rfl, hT.2 hl h⟩⟩
      have hb : b.reject = true := by simpa using hr
      have := hq1 hb
      nlinarith [hu.2]

/-- C23, step size, `try_step( sys , x , dxdt , t , dt )`. -/
theorem bulirsch_stoer_step_size2 (hd : d ≠ 0) (resized : Bool) {sys : Sys XR V W} (hs : sys.Defined) (x dxdt : Loc) (t : XR) (s : BsState XR V W)
    (hv : s.ctl.Valid) :
    (bsTry2 P resized sys x dxdt t (fin d) s).Sat (fun r _ => BsStepSize ε d m (bsPrepare P resized (fin d) s.ctl).lastRej r) (fun _ _ => True) True := by
  unfold bsTry2
  refine Res.Sat.bind ((bulirsch_stoer_step_size4 P pow ε d m hops hP hε hchk hm hmd hd resized hs x dxdt t bsXnew s hv).mono (fun r s' h => ?_)
    (fun _ _ h => h) (fun h => h))
  by_cases hr : r.success = true
  · rw [if_pos hr]; exact h
  · rw [if_neg hr]; exact h

/-- C23, step size, `try_step( sys , in , t , out , dt )`. -/
theorem bulirsch_stoer_step_size3 (hd : d ≠ 0) (resized : Bool) {sys : Sys XR V W} (hs : sys.Defined) (inp : Loc) (t : XR) (out : Loc) (s : BsState XR V W)
    (hv : s.ctl.Valid) :
    (bsTry3 P resized sys inp t out (fin d) s).Sat (fun r _ => BsStepSize ε d m (bsPrepare P resized (fin d) s.ctl).lastRej r) (fun _ _ => True) True := by
  unfold bsTry3
  refine Res.Sat.bind ((onHeap_keeps rfl (callSys_sat hs _ _ _ _)).mono (fun _ s' h => ?_) (fun _ _ _ => trivial) (fun h => h))
  rw [← h]
  exact bulirsch_stoer_step_size4 P pow ε d m hops hP hε hchk hm hmd hd resized hs inp bsDxdt t out s' (by rw [h]; exact hv)

/-- C23, step size, `try_step( sys , x , t , dt )`. -/
theorem bulirsch_stoer_step_size1 (hd : d ≠ 0) (resized : Bool) {sys : Sys XR V W} (hs : sys.Defined) (x : Loc) (t : XR) (s : BsState XR V W)
    (hv : s.ctl.Valid) :
    (bsTry1 P resized sys x t (fin d) s).Sat (fun r _ => BsStepSize ε d m (bsPrepare P resized (fin d) s.ctl).lastRej r) (fun _ _ => True) True := by
  unfold bsTry1
  refine Res.Sat.bind ((onHeap_keeps rfl (callSys_sat hs _ _ _ _)).mono (fun _ s' h => ?_) (fun _ _ _ => trivial) (fun h => h))
  rw [← h]
  exact bulirsch_stoer_step_size2 P pow ε d m hops hP hε hchk hm hmd hd resized hs x bsDxdt t s' (by rw [h]; exact hv)

end

/-! ## Where the contract does not hold -/

/-- A step of at most `ε` is not reduced any more: after a rejected try, a try whose errors are all not below 1 fails again and proposes the same
step, so that the same failing try is repeated for ever. -/
theorem bs_tiny_step_stuck (P : BsParams XR V) (pow : XR → XR → XR) (ε d : ℝ) (hops : P.ops = ops pow (fin ε)) (hP : PowOk bsRules pow (fin ε))
    (hm : P.maxDt = fin 0) (hd : |d| ≤ ε) (hchk : ∀ x d e dt, (P.checker.error x d e dt).2.NonNeg ∧ XR.lt (P.checker.error x d e dt).2 (fin 1) = false)
    {sys : Sys XR V W} (hs : sys.Defined) (inp dxdt : Loc) (t : XR) (out : Loc) (s : BsState XR V W) (hv : s.ctl.Valid)
    (hrej : s.ctl.lastRej = true) (hlast : s.ctl.dtLast = fin d) :
    (bsTry4 P false sys inp dxdt t out (fin d) s).Sat (fun r _ => r = ⟨false, t, fin d⟩) (fun _ _ => True) True := by
  have hc : bsPrepare P false (fin d) s.ctl = s.ctl := by
    unfold bsPrepare
    rw [hops, hlast]
    have : (ops pow (fin ε)).eq (fin d) (fin d) = true := decide_eq_true rfl
    rw [this]
    simp
  refine (bsTry4_loopEnd P false hs inp dxdt t out (fin d) (fun e => e.NonNeg ∧ XR.lt e (fin 1) = false) (fun x d e => hchk x d e _) s hv).mono ?_
    (fun _ _ h => h) (fun h => h)
  rintro r - (⟨hl, -⟩ | ⟨hl, b, k, e, rfl, he, hL⟩)
  · exact absurd (((bsTooLong_xr P pow ε d 0 hops hm (Or.inl rfl)).1 hl).1) (by simp)
  · rw [hc] at hL ⊢
    rw [hops] at hL
    have hl1 : ∀ e, (ops pow (fin ε)).lt e (lit 1) = XR.lt e (fin 1) := by intro e; rw [XR.lit_fin]; simp [ops]
    have hb : b.reject = true := by
      cases hb : b.reject with
      | true => rfl
      | false =>
        have := (hL.acc hb).1
        rw [hl1, he.2] at this
        exact this
    obtain ⟨-, j, e', h1, h2, ⟨h3, h4⟩, -, h5⟩ := hL.rej hb
    obtain ⟨q, q1, q2, q3⟩ := bsCalcHopt_xr bsRules pow (fin ε) hP d e' h3 j h1 h2
    have hup : bsUpdates P s.ctl b (fin d) = false := by
      unfold bsUpdates
      rw [hops, h5, q2, lessWithSign_xr, hrej]
      have : ¬ ε < (1 - q) * |d| := by
        have := abs_nonneg d
        nlinarith
      simpa using this
    unfold bsResult
    rw [hup, hb]
    simp

/-- An error checker that returns NaN makes the step *longer*: every try fails, and the step is divided by the smallest factor. -/
theorem bs_nan_error_grows (P : BsParams XR V) (pow : XR → XR → XR) (ε d : ℝ) (hops : P.ops = ops pow (fin ε)) (hP : PowOk bsRules pow (fin ε))
    (hnan : ∀ e, pow nan e = nan) (hm : P.maxDt = fin 0) (hchk : ∀ x d e dt, (P.checker.error x d e dt).2 = nan) (resized : Bool)
    {sys : Sys XR V W} (hs : sys.Defined) (inp dxdt : Loc) (t : XR) (out : Loc) (s : BsState XR V W) (hv : s.ctl.Valid)
    (hrej : s.ctl.lastRej = false) :
    (bsTry4 P resized sys inp dxdt t out (fin d) s).Sat
      (fun r _ => r.success = false ∧ r.t = t ∧ ∃ q : ℝ, 1 ≤ q ∧ r.dt = fin (d * q) ∧ ∃ i, 1 ≤ i ∧ i ≤ 8 ∧ bsFacmin (ops pow (fin ε)) i = fin (1 / q))
      (fun _ _ => True) True := by
  have hc : (bsPrepare P resized (fin d) s.ctl).lastRej = false := by
    unfold bsPrepare
    split
    · rfl
    · exact hrej
  refine (bsTry4_loopEnd P resized hs inp dxdt t out (fin d) (fun e => e = nan) (fun x d e => hchk x d e _) s hv).mono ?_
    (fun _ _ h => h) (fun h => h)
  rintro r - (⟨hl, -⟩ | ⟨hl, b, k, e, rfl, rfl, hL⟩)
  · exact absurd (((bsTooLong_xr P pow ε d 0 hops hm (Or.inl rfl)).1 hl).1) (by simp)
  · rw [hops] at hL
    generalize bsPrepare P resized (fin d) s.ctl = c at hL hc ⊢
    have hb : b.reject = true := by
      cases hb : b.reject with
      | true => rfl
      | false => exact nomatch (hL.acc hb).1
    obtain ⟨-, j, e', h1, h2, rfl, -, h5⟩ := hL.rej hb
    obtain ⟨m, m0, m1, hmm⟩ := hP.facmin j h1 h2
    have hnew : b.newH = fin (d * (1 / m)) := by
      rw [h5]
      unfold bsCalcHopt bsFac
      rw [hmm]
      have e1 : (ops pow (fin ε)).eq nan (lit 0) = false := rfl
      rw [e1]
      have hinv : (lit 1 / fin m : XR) = fin (1 / m) := by rw [XR.lit_fin, XR.fin_div m0.ne']; simp
      have h4 : (fin m / lit 4 : XR) = fin (m / 4) := by rw [XR.lit_fin, XR.fin_div (by norm_num)]; norm_num
      rw [hinv, h4, if_neg (by simp)]
      have e2 : (nan / frac 65 100 : XR) = nan := rfl
      rw [e2]
      show (fin d * (ops pow (fin ε)).max (fin (m / 4)) ((ops pow (fin ε)).min (fin (1 / m)) (frac 94 100 / pow nan (bsRules.expo j))) : XR) = _
      rw [hnan]
      have e3 : (frac 94 100 / nan : XR) = nan := by cases (frac 94 100 : XR) <;> rfl
      rw [e3]
      have hmin : (ops pow (fin ε)).min (fin (1 / m)) nan = fin (1 / m) := rfl
      rw [hmin]
      have hmax : (ops pow (fin ε)).max (fin (m / 4)) (fin (1 / m)) = fin (1 / m) := by
        show (if decide (m / 4 < 1 / m) = true then fin (1 / m) else fin (m / 4)) = _
        rw [if_pos (decide_eq_true ?_)]
        have : 1 ≤ 1 / m := by rw [le_div_iff₀ m0]; linarith
        linarith
      rw [hmax, XR.fin_mul]
    refine ⟨by show (!b.reject) = false; rw [hb]; rfl, by show (if b.reject = true then t else t + fin d) = t; rw [hb]; rfl, 1 / m, ?_, ?_, j, h1, h2, ?_⟩
    · rw [le_div_iff₀ m0]; linarith
    · show (if bsUpdates P c b (fin d) = true then bsNewDt P b else fin d) = _
      rw [if_pos (by unfold bsUpdates; rw [hc]; rfl)]
      unfold bsNewDt
      rw [hops, hm, if_pos ?_, hnew]
      exact decide_eq_true (by simp)
    · rw [hmm]
      simp

/-- `pow` of nonnegative numbers with positive exponents, as in the C++ standard library with exact results -/
noncomputable def XR.pow : XR → XR → XR
  | fin a, fin b => fin (a ^ b)
  | inf false, _ => inf false
  | _, _ => nan

theorem XR.pow_ok (eps : XR) : PowOk bsRules XR.pow eps := by
  have hex : ∀ k : ℕ, (lit 1 / lit (2 * k + 1) : XR) = fin (1 / (2 * k + 1)) := by
    intro k
    rw [XR.lit_fin, XR.lit_fin, XR.fin_div (by exact_mod_cast (by omega : (2 * (k : ℤ) + 1) ≠ 0))]
    push_cast
    rfl
  refine ⟨?_, ?_, ?_⟩
  · intro i _ _
    refine ⟨(2 / 100 : ℝ) ^ (1 / (2 * (i : ℝ) + 1)), Real.rpow_pos_of_pos (by norm_num) _,
      Real.rpow_le_one (by norm_num) (by norm_num) (by positivity), ?_⟩
    unfold bsFacmin
    rw [hex, XR.frac_fin _ _ (by norm_num)]
    show fin _ = _
    norm_num
  · intro a k _ _ ha
    show XR.le (fin 0) (XR.pow a (lit 1 / lit (2 * k + 1))) = true
    rw [hex]
    cases a with
    | nan => cases ha
    | inf s =>
      cases s with
      | true => cases ha
      | false => rfl
    | fin a => exact decide_eq_true (Real.rpow_nonneg (of_decide_eq_true ha) _)
  · intro a k _ _ ha
    show XR.le (fin 1) (XR.pow a (lit 1 / lit (2 * k + 1))) = true
    rw [hex]
    cases a with
    | nan => cases ha
    | inf s =>
      cases s with
      | true => cases ha
      | false => rfl
    | fin a => exact decide_eq_true (Real.one_le_rpow (of_decide_eq_true ha : (1 : ℝ) < a).le (by positivity))

/-- the default error checker never returns NaN or a negative number -/
theorem XR.default_nonneg (pow : XR → XR → XR) (eps epsAbs epsRel aX aDxdt : XR) (x d e : List XR) (dt : XR) :
    ((defaultErrorChecker (ops pow eps) epsAbs epsRel aX aDxdt).error x d e dt).2.NonNeg :=
  XR.normInf_nonneg pow eps _ (lit 0) (by show (0 : ℝ) ≤ ((0 : ℤ) : ℝ); simp)

/-- the default configuration: the default error checker, tolerance `ε` of the time comparisons, limit `m` -/
noncomputable def xrBs (ε m a : ℝ) : BsParams XR (List XR) :=
  ⟨ops XR.pow (fin ε), defaultErrorChecker (ops XR.pow (fin ε)) (fin a) (fin a) (fin 1) (fin 1), fin m⟩

/-- the system `x' = x` -/
def idSys : Sys XR (List XR) Unit := fun x _ => pure x

theorem idSys_defined : idSys.Defined := fun _ _ _ h => nomatch h

/-- a checker that always returns `e` -/
noncomputable def xrConst (ε : ℝ) (e : XR) : BsParams XR (List XR) := ⟨ops XR.pow (fin ε), ⟨fun _ _ er _ => (er, e)⟩, fin 0⟩

/-- Non-vacuity: the default configuration, for the system `x' = x`, a step backwards in time after a rejected one, limited to `1/2`. -/
example (ops' : StateOps XR (List XR)) (heap : Heap XR (List XR) Unit) (ε a d m : ℝ) (hε : 0 ≤ ε) (hd : d = -1 / 10) (hm : m = -1 / 2) :
    (bsTry1 (xrBs ε m a) false idSys (.user 0) (fin 0) (fin d) ⟨⟨5, false, true, fin d⟩, heap⟩).Sat
      (fun r _ => BsStepSize ε d m true r) (fun _ _ => True) True := by
  have h := bulirsch_stoer_step_size1 (W := Unit) (xrBs ε m a) XR.pow ε d m rfl (XR.pow_ok _) hε (fun _ _ _ _ => XR.default_nonneg _ _ _ _ _ _ _ _ _ _) rfl
    (Or.inr (by rw [hd, hm]; norm_num)) (by rw [hd]; norm_num) false idSys_defined (.user 0) (fin 0)
    ⟨⟨5, false, true, fin d⟩, heap⟩ ⟨by show 2 ≤ 5; omega, by show 5 ≤ 7; omega, fun h => nomatch h⟩
  have hp : (bsPrepare (xrBs ε m a) false (fin d) ⟨5, false, true, fin d⟩).lastRej = true := by
    unfold bsPrepare
    have : (xrBs ε m a).ops.eq (fin d) (fin d) = true := decide_eq_true rfl
    rw [if_neg (by simp [this])]
  rw [hp] at h
  exact h

/-- Non-vacuity of `bs_tiny_step_stuck`: with a checker that always returns 2, the step `ε/2` is not reduced. -/
example (ops' : StateOps XR (List XR)) (heap : Heap XR (List XR) Unit) (ε d : ℝ) (hε : 0 < ε) (hd : d = ε / 2) :
    (bsTry4 (xrConst ε (fin 2)) false idSys (.user 0) (.user 1) (fin 0) (.user 2) (fin d) ⟨⟨4, false, true, fin d⟩, heap⟩).Sat
      (fun r _ => r = ⟨false, fin 0, fin d⟩) (fun _ _ => True) True :=
  bs_tiny_step_stuck (xrConst ε (fin 2)) XR.pow ε d rfl (XR.pow_ok _) rfl (by rw [hd, abs_of_pos (by positivity)]; linarith)
    (fun _ _ _ _ => ⟨by show (0 : ℝ) ≤ 2; norm_num, decide_eq_false (by norm_num)⟩) idSys_defined (.user 0) (.user 1) (fin 0) (.user 2)
    ⟨⟨4, false, true, fin d⟩, heap⟩
    ⟨by show 2 ≤ 4; omega, by show 4 ≤ 7; omega, fun h => nomatch h⟩ rfl rfl

/-- Non-vacuity of `bs_nan_error_grows`. -/
example (ops' : StateOps XR (List XR)) (heap : Heap XR (List XR) Unit) (ε d : ℝ) :
    (bsTry4 (xrConst ε nan) false idSys (.user 0) (.user 1) (fin 0) (.user 2) (fin d) ⟨BsCtl.construct (fin 0), heap⟩).Sat
      (fun r _ => r.success = false ∧ r.t = fin 0 ∧ ∃ q : ℝ, 1 ≤ q ∧ r.dt = fin (d * q) ∧
        ∃ i, 1 ≤ i ∧ i ≤ 8 ∧ bsFacmin (ops XR.pow (fin ε)) i = fin (1 / q))
      (fun _ _ => True) True :=
  bs_nan_error_grows (xrConst ε nan) XR.pow ε d rfl (XR.pow_ok _) (fun e => by cases e <;> rfl) rfl (fun _ _ _ _ => rfl) false idSys_defined (.user 0) (.user 1) (fin 0) (.user 2)
    ⟨BsCtl.construct (fin 0), heap⟩ (BsCtl.reset_valid ⟨0, true, false, fin 0⟩) rfl

/-- A limit with the sign opposite to that of the step: nothing is computed, and the step turns round. -/
theorem bs_max_dt_flips (P : BsParams XR V) (pow : XR → XR → XR) (ε m d : ℝ) (hops : P.ops = ops pow (fin ε)) (hm : P.maxDt = fin m)
    (hm0 : 0 < m) (hd : d ≤ 0) (hmd : ε < m - d) (resized : Bool) (sys : Sys XR V W) (inp dxdt : Loc) (t : XR) (out : Loc) (s : BsState XR V W) :
    bsTry4 P resized sys inp dxdt t out (fin d) s = .ok ⟨false, t, fin m⟩ s := by
  have : bsTooLong P (fin d) = true := by
    unfold bsTooLong TimeArith.lessWithSign
    rw [hops, hm]
    show (!decide (m = ((0 : ℤ) : ℝ)) && (if decide (((0 : ℤ) : ℝ) < d) = true then XR.lt (fin ε) (fin d - fin m) else XR.lt (fin ε) (fin m - fin d))) = _
    rw [XR.fin_sub, XR.fin_sub]
    have h1 : m ≠ 0 := hm0.ne'
    simp [XR.lt, h1, not_lt.mpr hd, hmd]
  unfold bsTry4
  rw [if_pos this, hm]
  rfl

end Verif
