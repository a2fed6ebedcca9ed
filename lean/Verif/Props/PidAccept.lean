import Verif.Props.PidAdjust
import Verif.Props.Algebra
import Verif.Props.ErrorChecker
import Mathlib.Analysis.SpecialFunctions.Trigonometric.ArctanDeriv
import Mathlib.Tactic.IntervalCases

/-!
# C57: what the step adjuster of the controlled Adams stepper accepts

The tolerances bound the *filtered* error, a product of powers of the last three errors and step ratios.  In the first two steps after a rejection
the error itself is bounded; later a step whose error exceeds the tolerance by any factor is accepted if the previous errors were small enough.
-/

namespace Verif
set_option linter.unusedSectionVars false
open XR

section Real
variable (eps : ℝ)

/-- the filtered error: `b 0`, `b 1`, `b 2` are the exponents of the last three errors, `b 3`, `b 4` those of the last two step ratios; `k` is the order of the error estimate -/
noncomputable def filteredError (b : ℕ → ℝ) (k e1 e2 e3 r1 r2 : ℝ) : ℝ :=
  e1 ^ (b 0 / k) * e2 ^ (b 1 / k) * e3 ^ (b 2 / k) * r1 ^ (b 3 / k) * r2 ^ (b 4 / k)

theorem adaptedPow_real {base : ℝ} (hb : 0 < base) (exp : ℝ) : adaptedPow (realOps eps) base exp = base ^ exp := by
  unfold adaptedPow
  simp only [realOps, lit, Int.cast_zero, Int.cast_one, decide_eq_true_eq]
  split
  · rename_i h; rw [h, Real.rpow_zero]
  · split
    · rfl
    · rw [Real.rpow_neg hb.le, one_div, inv_inv]

theorem pidOp2_real {e : ℝ} (he : 0 < e) (b : ℝ) (steps : ℕ) :
    pidOp2 (realOps eps) b steps e = e ^ (b / (steps + 1)) := by
  unfold pidOp2
  have : (realOps eps).abs e = e := abs_of_pos he
  rw [this, adaptedPow_real eps he]
  simp only [lit]
  push_cast
  rw [neg_div, Real.rpow_neg he.le, one_div, inv_inv]

theorem pidOp4_real (b : ℕ → ℝ) (steps : ℕ) {dt1 dt2 dt3 e1 e2 e3 : ℝ} (h1 : 0 < e1) (h2 : 0 < e2) (h3 : 0 < e3)
    (d1 : dt1 ≠ 0) (d2 : dt2 ≠ 0) (d3 : dt3 ≠ 0) :
    pidOp4 (realOps eps) b steps dt1 dt2 dt3 e1 e2 e3 = filteredError b (steps + 1) e1 e2 e3 |dt1 / dt2| |dt2 / dt3| := by
  unfold pidOp4 filteredError
  have a1 : (realOps eps).abs e1 = e1 := abs_of_pos h1
  have a2 : (realOps eps).abs e2 = e2 := abs_of_pos h2
  have a3 : (realOps eps).abs e3 = e3 := abs_of_pos h3
  have a4 : 0 < (realOps eps).abs (dt1 / dt2) := abs_pos.mpr (div_ne_zero d1 d2)
  have a5 : 0 < (realOps eps).abs (dt2 / dt3) := abs_pos.mpr (div_ne_zero d2 d3)
  rw [a1, a2, a3, adaptedPow_real eps h1, adaptedPow_real eps h2, adaptedPow_real eps h3, adaptedPow_real eps a4, adaptedPow_real eps a5]
  simp only [lit]
  push_cast
  simp only [neg_div]
  rw [Real.rpow_neg h1.le, Real.rpow_neg h2.le, Real.rpow_neg h3.le, Real.rpow_neg a4.le, Real.rpow_neg a5.le]
  simp only [one_div, mul_inv, inv_inv]
  rfl

/-- the largest filtered error that is accepted, about `1.1115` -/
noncomputable def acceptBound : ℝ := 1 / (1 - Real.tan (1 / 10))

theorem tan_tenth : 0 < Real.tan (1 / 10) ∧ Real.tan (1 / 10) < 1 := by
  have hpi := Real.pi_gt_three
  refine ⟨Real.tan_pos_of_pos_of_lt_pi_div_two (by norm_num) (by linarith), ?_⟩
  have : Real.tan (1 / 10) < Real.tan (Real.pi / 4) :=
    Real.tan_lt_tan_of_nonneg_of_lt_pi_div_two (by norm_num) (by linarith) (by linarith)
  rwa [Real.tan_pi_div_four] at this

theorem one_lt_acceptBound : 1 < acceptBound := by
  obtain ⟨h1, h2⟩ := tan_tenth
  unfold acceptBound
  rw [lt_div_iff₀ (by linarith)]
  linarith

/-- the parameters of the adjuster over the real numbers -/
noncomputable def realPid (absTol relTol dtmax : ℝ) (coef : ℕ → ℝ) : PidParams ℝ := ⟨absTol, relTol, dtmax, coef, Real.arctan⟩

theorem pidRatio_real (absTol relTol dtmax : ℝ) (coef : ℕ → ℝ) (l : List ℝ) :
    pidRatio (realOps eps) (realPid absTol relTol dtmax coef) l = 1 + Real.arctan (1 / normInf (realOps eps) (lit 0) l - 1) := by
  unfold pidRatio realPid
  simp [lit]

/-- The ratio reaches the threshold iff no component exceeds `acceptBound`. -/
theorem pidRatio_accept_iff (absTol relTol dtmax : ℝ) (coef : ℕ → ℝ) (l : List ℝ) (hl : l ≠ []) (hpos : ∀ v ∈ l, 0 < v) :
    9 / 10 ≤ pidRatio (realOps eps) (realPid absTol relTol dtmax coef) l ↔ ∀ v ∈ l, v ≤ acceptBound := by
  obtain ⟨h0, hle, hmem, -⟩ := norm_inf_spec eps l
  rw [pidRatio_real]
  generalize normInf (realOps eps) (lit 0) l = n at h0 hle hmem
  obtain ⟨v0, hv0⟩ := List.exists_mem_of_ne_nil l hl
  have hn : 0 < n := lt_of_lt_of_le (abs_pos.mpr (hpos v0 hv0).ne') (hle v0 hv0)
  obtain ⟨ht0, ht1⟩ := tan_tenth
  have hpi := Real.pi_gt_three
  have key : 9 / 10 ≤ 1 + Real.arctan (1 / n - 1) ↔ n ≤ acceptBound := by
    have e1 : 9 / 10 ≤ 1 + Real.arctan (1 / n - 1) ↔ Real.arctan (-(Real.tan (1 / 10))) ≤ Real.arctan (1 / n - 1) := by
      rw [Real.arctan_neg, Real.arctan_tan (by linarith) (by linarith)]
      constructor <;> intro h <;> linarith
    rw [e1, Real.arctan_strictMono.le_iff_le]
    unfold acceptBound
    rw [le_div_iff₀ (by linarith)]
    constructor
    · intro h
      have : 1 - Real.tan (1 / 10) ≤ 1 / n := by linarith
      rw [le_div_iff₀ hn] at this
      linarith
    · intro h
      have : 1 - Real.tan (1 / 10) ≤ 1 / n := by rw [le_div_iff₀ hn]; linarith
      linarith
  rw [key]
  constructor
  · intro h v hv
    exact (le_trans (le_abs_self v) (hle v hv)).trans h
  · intro h
    rcases hmem with h' | ⟨v, hv, h'⟩
    · rw [h'] at hn; exact absurd hn (lt_irrefl _)
    · rw [h', abs_of_pos (hpos v hv)]
      exact h v hv

/-- the ratio returned by a call, when `dtmax` does not limit the step -/
theorem pidAdjust_ratio (absTol relTol dtmax : ℝ) (coef : ℕ → ℝ) (steps : ℕ) (dt : ℝ) (hdt : dt ≠ 0)
    (hmax : (1 + Real.pi / 2) * |dt| < dtmax) (err x dxdt : List ℝ) (s : PidState ℝ) :
    pidAdjust (realOps eps) (realPid absTol relTol dtmax coef) steps dt err x dxdt s =
      let e := relErrorLoop (realOps eps) absTol relTol 1 |dt| err x dxdt
      let errs := fun i => if i = 0 then e else s.err i
      let dts := fun i => if i = 0 then dt else s.dts i
      let l := pidErrors (realOps eps) (realPid absTol relTol dtmax coef) steps s.init errs dts
      let ratio := pidRatio (realOps eps) (realPid absTol relTol dtmax coef) l
      (dt * ratio, l, pidAdvance (decide (9 / 10 ≤ ratio)) errs dts s.init) := by
  unfold pidAdjust
  dsimp only
  have e1 : (lit 1 : ℝ) = 1 := by simp [lit]
  have e2 : (lit 1 : ℝ) * (realOps eps).abs dt = |dt| := by rw [e1, one_mul]; rfl
  rw [e2, e1]
  show (dt * pidLimit _ _ dt (pidRatio _ _ (pidErrors (realOps eps) (realPid absTol relTol dtmax coef) steps s.init
      (fun i => if i = 0 then relErrorLoop (realOps eps) absTol relTol 1 |dt| err x dxdt else s.err i) (fun i => if i = 0 then dt else s.dts i))), _, _) = _
  have hlim : ∀ l : List ℝ, pidLimit (realOps eps) (realPid absTol relTol dtmax coef) dt
      (pidRatio (realOps eps) (realPid absTol relTol dtmax coef) l) = pidRatio (realOps eps) (realPid absTol relTol dtmax coef) l := by
    intro l
    unfold pidLimit
    rw [if_neg]
    show ¬ decide (dtmax ≤ pidRatio (realOps eps) (realPid absTol relTol dtmax coef) l * dt) = true
    rw [decide_eq_true_eq, not_le]
    refine lt_of_le_of_lt ?_ hmax
    have hb : |pidRatio (realOps eps) (realPid absTol relTol dtmax coef) l| ≤ 1 + Real.pi / 2 := by
      rw [pidRatio_real]
      generalize 1 / normInf (realOps eps) (lit 0) l - 1 = a
      have h1 := Real.arctan_lt_pi_div_two a
      have h2 := Real.neg_pi_div_two_lt_arctan a
      rw [abs_le]
      constructor <;> linarith
    calc _ ≤ |pidRatio (realOps eps) (realPid absTol relTol dtmax coef) l * dt| := le_abs_self _
      _ = |pidRatio (realOps eps) (realPid absTol relTol dtmax coef) l| * |dt| := abs_mul _ _
      _ ≤ _ := mul_le_mul_of_nonneg_right hb (abs_nonneg _)
  have ht : ∀ r : ℝ, (realOps eps).le pidThreshold r = decide (9 / 10 ≤ r) := by
    intro r
    show decide ((lit 9 / lit 10 : ℝ) ≤ r) = _
    norm_num [lit]
  rw [hlim, ht]
  simp only [hlim]
  rfl

theorem mem_pidLoop (O : NumOps ℝ) (b : ℕ → ℝ) (steps : ℕ) (dt1 dt2 dt3 : ℝ) :
    ∀ (l1 l2 l3 : List ℝ) (v : ℝ), v ∈ pidLoop O b steps dt1 dt2 dt3 l1 l2 l3 ↔
      ∃ (i : ℕ) (e1 e2 e3 : ℝ), l1[i]? = some e1 ∧ l2[i]? = some e2 ∧ l3[i]? = some e3 ∧ v = pidOp4 O b steps dt1 dt2 dt3 e1 e2 e3 := by
  intro l1
  induction l1 with
  | nil => intro l2 l3 v; simp [pidLoop]
  | cons a l1 ih =>
    intro l2 l3 v
    cases l2 with
    | nil => simp [pidLoop]
    | cons b' l2 =>
      cases l3 with
      | nil => simp [pidLoop]
      | cons c l3 =>
        rw [pidLoop, List.mem_cons, ih]
        constructor
        · rintro (rfl | ⟨i, e1, e2, e3, h1, h2, h3, rfl⟩)
          · exact ⟨0, a, b', c, rfl, rfl, rfl, rfl⟩
          · exact ⟨i + 1, e1, e2, e3, by simpa using h1, by simpa using h2, by simpa using h3, rfl⟩
        · rintro ⟨i, e1, e2, e3, h1, h2, h3, rfl⟩
          cases i with
          | zero =>
            left
            simp only [List.getElem?_cons_zero, Option.some.injEq] at h1 h2 h3
            rw [h1, h2, h3]
          | succ i => right; exact ⟨i, e1, e2, e3, by simpa using h1, by simpa using h2, by simpa using h3, rfl⟩

/-- C57, the acceptance test after at least two accepted steps: if the step is not limited by `dtmax`, it is accepted (ratio at least `9/10`) iff in every
component the filtered error is at most `1 / (1 - tan 0.1)`.  The stored errors `s.err 1`, `s.err 2` and step sizes `s.dts 1`, `s.dts 2` are those of the
two preceding steps. -/
theorem pid_accept_iff (absTol relTol dtmax : ℝ) (coef : ℕ → ℝ) (steps : ℕ) (dt : ℝ) (hdt : dt ≠ 0) (hmax : (1 + Real.pi / 2) * |dt| < dtmax)
    (err x dxdt : List ℝ) (s : PidState ℝ) (hinit : 2 ≤ s.init) (hne : err ≠ [])
    (hlen : (relErrorLoop (realOps eps) absTol relTol 1 |dt| err x dxdt).length = err.length ∧ (s.err 1).length = err.length ∧
      (s.err 2).length = err.length)
    (hpos : (∀ v ∈ relErrorLoop (realOps eps) absTol relTol 1 |dt| err x dxdt, 0 < v) ∧ (∀ v ∈ s.err 1, 0 < v) ∧ (∀ v ∈ s.err 2, 0 < v))
    (hd : s.dts 1 ≠ 0 ∧ s.dts 2 ≠ 0) :
    9 / 10 ≤ (pidAdjust (realOps eps) (realPid absTol relTol dtmax coef) steps dt err x dxdt s).1 / dt ↔
      ∀ (i : ℕ) (e1 e2 e3 : ℝ), (relErrorLoop (realOps eps) absTol relTol 1 |dt| err x dxdt)[i]? = some e1 → (s.err 1)[i]? = some e2 →
        (s.err 2)[i]? = some e3 → filteredError coef (steps + 1) e1 e2 e3 |dt / s.dts 1| |s.dts 1 / s.dts 2| ≤ acceptBound := by
  rw [pidAdjust_ratio eps absTol relTol dtmax coef steps dt hdt hmax]
  dsimp only
  rw [mul_div_cancel_left₀ _ hdt]
  generalize relErrorLoop (realOps eps) absTol relTol 1 |dt| err x dxdt = e at hlen hpos
  unfold pidErrors
  rw [if_pos hinit]
  simp only [if_true, if_neg (show ¬ (1 : ℕ) = 0 by omega), if_neg (show ¬ (2 : ℕ) = 0 by omega)]
  have hval : ∀ (i : ℕ) (e1 e2 e3 : ℝ), e[i]? = some e1 → (s.err 1)[i]? = some e2 → (s.err 2)[i]? = some e3 →
      pidOp4 (realOps eps) (realPid absTol relTol dtmax coef).coef steps dt (s.dts 1) (s.dts 2) e1 e2 e3 =
        filteredError coef (steps + 1) e1 e2 e3 |dt / s.dts 1| |s.dts 1 / s.dts 2| ∧ 0 < e1 ∧ 0 < e2 ∧ 0 < e3 := by
    intro i e1 e2 e3 h1 h2 h3
    have p1 := hpos.1 e1 (List.mem_of_getElem? h1)
    have p2 := hpos.2.1 e2 (List.mem_of_getElem? h2)
    have p3 := hpos.2.2 e3 (List.mem_of_getElem? h3)
    exact ⟨pidOp4_real eps coef steps p1 p2 p3 hdt hd.1 hd.2, p1, p2, p3⟩
  rw [pidRatio_accept_iff]
  · constructor
    · intro h i e1 e2 e3 h1 h2 h3
      rw [← (hval i e1 e2 e3 h1 h2 h3).1]
      exact h _ ((mem_pidLoop _ _ _ _ _ _ _ _ _ _).2 ⟨i, e1, e2, e3, h1, h2, h3, rfl⟩)
    · intro h v hv
      obtain ⟨i, e1, e2, e3, h1, h2, h3, rfl⟩ := (mem_pidLoop _ _ _ _ _ _ _ _ _ _).1 hv
      rw [(hval i e1 e2 e3 h1 h2 h3).1]
      exact h i e1 e2 e3 h1 h2 h3
  · have hl : 0 < err.length := List.length_pos_iff.mpr hne
    intro hnil
    have : pidOp4 (realOps eps) (realPid absTol relTol dtmax coef).coef steps dt (s.dts 1) (s.dts 2) (e[0]'(by omega)) ((s.err 1)[0]'(by omega))
        ((s.err 2)[0]'(by omega)) ∈ pidLoop (realOps eps) (realPid absTol relTol dtmax coef).coef steps dt (s.dts 1) (s.dts 2) e (s.err 1) (s.err 2) :=
      (mem_pidLoop _ _ _ _ _ _ _ _ _ _).2 ⟨0, _, _, _, List.getElem?_eq_getElem _, List.getElem?_eq_getElem _, List.getElem?_eq_getElem _, rfl⟩
    rw [hnil] at this
    cases this
  · intro v hv
    obtain ⟨i, e1, e2, e3, h1, h2, h3, rfl⟩ := (mem_pidLoop _ _ _ _ _ _ _ _ _ _).1 hv
    obtain ⟨hv, p1, p2, p3⟩ := hval i e1 e2 e3 h1 h2 h3
    rw [hv]
    have a4 : 0 < |dt / s.dts 1| := abs_pos.mpr (div_ne_zero hdt hd.1)
    have a5 : 0 < |s.dts 1 / s.dts 2| := abs_pos.mpr (div_ne_zero hd.1 hd.2)
    unfold filteredError
    positivity

/-- C57, the acceptance test in the first two steps (after construction or a rejection): the step is accepted iff every scaled error `e` satisfies
`e ^ (7 / (10 (steps + 1))) ≤ 1 / (1 - tan 0.1)`. -/
theorem pid_startup_accept_iff (absTol relTol dtmax : ℝ) (coef : ℕ → ℝ) (steps : ℕ) (dt : ℝ) (hdt : dt ≠ 0)
    (hmax : (1 + Real.pi / 2) * |dt| < dtmax) (err x dxdt : List ℝ) (s : PidState ℝ) (hinit : s.init < 2)
    (hne : relErrorLoop (realOps eps) absTol relTol 1 |dt| err x dxdt ≠ [])
    (hpos : ∀ v ∈ relErrorLoop (realOps eps) absTol relTol 1 |dt| err x dxdt, 0 < v) :
    9 / 10 ≤ (pidAdjust (realOps eps) (realPid absTol relTol dtmax coef) steps dt err x dxdt s).1 / dt ↔
      ∀ e ∈ relErrorLoop (realOps eps) absTol relTol 1 |dt| err x dxdt, e ^ ((7 / 10 : ℝ) / (steps + 1)) ≤ acceptBound := by
  rw [pidAdjust_ratio eps absTol relTol dtmax coef steps dt hdt hmax]
  dsimp only
  rw [mul_div_cancel_left₀ _ hdt]
  generalize relErrorLoop (realOps eps) absTol relTol 1 |dt| err x dxdt = e at hne hpos
  unfold pidErrors
  rw [if_neg (by omega)]
  simp only [if_true]
  have h7 : (lit 7 / lit 10 : ℝ) = 7 / 10 := by norm_num [lit]
  rw [h7]
  have hval : ∀ v ∈ e, pidOp2 (realOps eps) (7 / 10) steps v = v ^ ((7 / 10 : ℝ) / (steps + 1)) := fun v hv => pidOp2_real eps (hpos v hv) _ steps
  rw [pidRatio_accept_iff]
  · constructor
    · intro h v hv
      rw [← hval v hv]
      exact h _ (List.mem_map_of_mem hv)
    · intro h v hv
      obtain ⟨u, hu, rfl⟩ := List.mem_map.1 hv
      rw [hval u hu]
      exact h u hu
  · simpa using hne
  · intro v hv
    obtain ⟨u, hu, rfl⟩ := List.mem_map.1 hv
    rw [hval u hu]
    exact Real.rpow_pos_of_pos (hpos u hu) _

/-- The memory after one accepted step with scaled error at most one, for a state with one component. -/
theorem pid_small_step (absTol relTol dtmax : ℝ) (coef : ℕ → ℝ) (steps : ℕ) (dt : ℝ) (hdt : dt ≠ 0) (hmax : (1 + Real.pi / 2) * |dt| < dtmax)
    (e : ℝ) (he : 0 < e) (he1 : e ≤ 1) (err x dxdt : List ℝ) (hrel : relErrorLoop (realOps eps) absTol relTol 1 |dt| err x dxdt = [e])
    (s : PidState ℝ) (hinit : s.init < 2) :
    (pidAdjust (realOps eps) (realPid absTol relTol dtmax coef) steps dt err x dxdt s).2.2 =
      ⟨fun i => if (i + 2) % 3 = 0 then [e] else s.err ((i + 2) % 3), fun i => if (i + 2) % 3 = 0 then dt else s.dts ((i + 2) % 3), s.init + 1⟩ := by
  have hacc := (pid_startup_accept_iff eps absTol relTol dtmax coef steps dt hdt hmax err x dxdt s hinit (by rw [hrel]; simp)
    (by rw [hrel]; simpa using he)).2
    (by
      rw [hrel]
      intro v hv
      simp only [List.mem_singleton] at hv
      subst hv
      refine le_trans ?_ one_lt_acceptBound.le
      exact Real.rpow_le_one he.le he1 (by positivity))
  rw [pidAdjust_ratio eps absTol relTol dtmax coef steps dt hdt hmax] at hacc ⊢
  dsimp only at hacc ⊢
  rw [mul_div_cancel_left₀ _ hdt] at hacc
  rw [decide_eq_true hacc, hrel]
  rfl

/-- C57 is violated: with the default coefficients (`H211PI`) a step whose error exceeds the tolerance by any factor `F` is accepted, with unchanged step size,
if the two steps before had the error `1 / √F` (in units of the tolerance).  The first call starts from a new adjuster. -/
theorem pid_accepts_any_error (steps : ℕ) (F : ℝ) (hF : 1 ≤ F) (s0 : PidState ℝ) (h0 : s0.init = 0) :
    ∃ s1 s2 : PidState ℝ,
      (pidAdjust (realOps eps) (realPid 1 0 3 (pidCoef .H211PI)) steps 1 [1 / Real.sqrt F] [0] [0] s0).2.2 = s1 ∧
      (pidAdjust (realOps eps) (realPid 1 0 3 (pidCoef .H211PI)) steps 1 [1 / Real.sqrt F] [0] [0] s1).2.2 = s2 ∧
      (pidAdjust (realOps eps) (realPid 1 0 3 (pidCoef .H211PI)) steps 1 [F] [0] [0] s2).1 = 1 := by
  have hsq : 1 ≤ Real.sqrt F := Real.one_le_sqrt.2 hF
  have hF0 : 0 < F := by linarith
  have he : 0 < 1 / Real.sqrt F := by positivity
  have he1 : 1 / Real.sqrt F ≤ 1 := by rw [div_le_one (by linarith)]; exact hsq
  have hmax : (1 + Real.pi / 2) * |(1 : ℝ)| < 3 := by have := Real.pi_lt_d2; rw [abs_one]; linarith
  have hrel : ∀ e : ℝ, 0 < e → relErrorLoop (realOps eps) 1 0 1 |(1 : ℝ)| [e] [0] [0] = [e] := by
    intro e he
    simp [relErrorLoop, relError, realOps, abs_of_pos he]
  refine ⟨_, _, rfl, rfl, ?_⟩
  rw [pid_small_step eps 1 0 3 _ steps 1 one_ne_zero hmax _ he he1 _ _ _ (hrel _ he) s0 (by omega)]
  rw [pid_small_step eps 1 0 3 _ steps 1 one_ne_zero hmax _ he he1 _ _ _ (hrel _ he) _ (by show s0.init + 1 < 2; omega)]
  rw [pidAdjust_ratio eps 1 0 3 _ steps 1 one_ne_zero hmax, hrel F hF0]
  dsimp only
  have hl : pidErrors (realOps eps) (realPid 1 0 3 (pidCoef .H211PI)) steps (s0.init + 1 + 1)
      (fun i => if i = 0 then [F] else if (i + 2) % 3 = 0 then [1 / Real.sqrt F] else
        if ((i + 2) % 3 + 2) % 3 = 0 then [1 / Real.sqrt F] else s0.err (((i + 2) % 3 + 2) % 3))
      (fun i => if i = 0 then 1 else if (i + 2) % 3 = 0 then 1 else if ((i + 2) % 3 + 2) % 3 = 0 then 1 else s0.dts (((i + 2) % 3 + 2) % 3)) = [1] := by
    unfold pidErrors
    rw [if_pos (by omega)]
    norm_num only [if_true, if_false]
    simp only [pidLoop]
    rw [pidOp4_real eps _ steps hF0 he he one_ne_zero one_ne_zero one_ne_zero]
    unfold filteredError realPid
    simp only [pidCoef, List.getD_cons_zero, List.getD_cons_succ, div_self (one_ne_zero' ℝ), abs_one, Real.one_rpow, lit, Int.cast_zero, zero_div,
      Real.rpow_zero, mul_one]
    congr 1
    rw [one_div, Real.sqrt_eq_rpow, ← Real.rpow_neg hF0.le, ← Real.rpow_mul hF0.le, ← Real.rpow_add hF0]
    push_cast
    have : (1 / 6 / ((steps : ℝ) + 1) + -(1 / 2) * (2 / 6 / ((steps : ℝ) + 1))) = 0 := by ring
    rw [this, Real.rpow_zero]
  rw [hl, pidRatio_real]
  simp [normInf, NumOps.max, realOps, lit]

/-- C57: when the errors of the last three steps equal the tolerance and the step size was constant, the step size is kept, whatever the coefficients are. -/
theorem pid_stationary (absTol relTol dtmax : ℝ) (coef : ℕ → ℝ) (steps : ℕ) (dt : ℝ) (hdt : dt ≠ 0) (hmax : (1 + Real.pi / 2) * |dt| < dtmax)
    (err x dxdt : List ℝ) (s : PidState ℝ) (m : ℕ) (he : relErrorLoop (realOps eps) absTol relTol 1 |dt| err x dxdt = List.replicate (m + 1) 1)
    (h1 : s.err 1 = List.replicate (m + 1) 1) (h2 : s.err 2 = List.replicate (m + 1) 1) (hd : s.dts 1 = dt ∧ s.dts 2 = dt) :
    (pidAdjust (realOps eps) (realPid absTol relTol dtmax coef) steps dt err x dxdt s).1 = dt := by
  rw [pidAdjust_ratio eps absTol relTol dtmax coef steps dt hdt hmax]
  dsimp only
  rw [he, pidRatio_real]
  have one : ∀ v ∈ pidErrors (realOps eps) (realPid absTol relTol dtmax coef) steps s.init
      (fun i => if i = 0 then List.replicate (m + 1) 1 else s.err i) (fun i => if i = 0 then dt else s.dts i), v = 1 := by
    intro v hv
    unfold pidErrors at hv
    split at hv
    · simp only [if_true, if_neg (show ¬ (1 : ℕ) = 0 by omega), if_neg (show ¬ (2 : ℕ) = 0 by omega)] at hv
      obtain ⟨i, e1, e2, e3, g1, g2, g3, rfl⟩ := (mem_pidLoop _ _ _ _ _ _ _ _ _ _).1 hv
      rw [h1] at g2
      rw [h2] at g3
      have a1 := List.eq_of_mem_replicate (List.mem_of_getElem? g1)
      have a2 := List.eq_of_mem_replicate (List.mem_of_getElem? g2)
      have a3 := List.eq_of_mem_replicate (List.mem_of_getElem? g3)
      subst a1 a2 a3
      rw [hd.1, hd.2, pidOp4_real eps _ steps one_pos one_pos one_pos hdt hdt hdt]
      unfold filteredError
      rw [div_self hdt, abs_one]
      simp [Real.one_rpow]
    · simp only [if_true] at hv
      obtain ⟨u, hu, rfl⟩ := List.mem_map.1 hv
      rw [List.eq_of_mem_replicate hu, pidOp2_real eps one_pos, Real.one_rpow]
  have hne : pidErrors (realOps eps) (realPid absTol relTol dtmax coef) steps s.init
      (fun i => if i = 0 then List.replicate (m + 1) 1 else s.err i) (fun i => if i = 0 then dt else s.dts i) ≠ [] := by
    unfold pidErrors
    split
    · simp [h1, h2, pidLoop, List.replicate_succ]
    · simp [List.replicate_succ]
  generalize pidErrors (realOps eps) (realPid absTol relTol dtmax coef) steps s.init
      (fun i => if i = 0 then List.replicate (m + 1) 1 else s.err i) (fun i => if i = 0 then dt else s.dts i) = l at one hne
  obtain ⟨h0, hle, hmem, -⟩ := norm_inf_spec eps l
  have hn : normInf (realOps eps) (lit 0) l = 1 := by
    obtain ⟨v0, hv0⟩ := List.exists_mem_of_ne_nil l hne
    have := hle v0 hv0
    rw [one v0 hv0, abs_one] at this
    rcases hmem with h | ⟨v, hv, h⟩
    · rw [h] at this; norm_num at this
    · rw [h, one v hv, abs_one]
  rw [hn]
  simp

end Real

/-! ## Steps backwards in time, and errors that are not a number -/

/-- C25 does not extend to negative limits: with `dtmax < 0` (as one might choose for an integration backwards in time) every step that is at most
`dtmax / (1 + π/2)` long is replaced by `dtmax` and accepted, whatever the error is. -/
theorem pid_negative_dtmax (pow : XR → XR → XR) (eps absTol relTol : XR) (dtmax dt : ℝ) (hdt : dt < 0) (hmax : dtmax ≤ (1 + Real.pi / 2) * dt)
    (coef : ℕ → XR) (steps : ℕ) (err x dxdt : List XR) (s : PidState XR) :
    (pidAdjust (ops pow eps) (xrPid absTol relTol (fin dtmax) coef) steps (fin dt) err x dxdt s).1 = fin dtmax ∧ 9 / 10 ≤ dtmax / dt := by
  unfold pidAdjust
  dsimp only
  generalize pidErrors (ops pow eps) _ steps s.init _ _ = l
  obtain ⟨q, hq, h1, h2⟩ := pidRatio_bounds pow eps absTol relTol (fin dtmax) coef l
  rw [hq]
  have hpi := Real.pi_gt_three
  unfold pidLimit
  have : (ops pow eps).le (xrPid absTol relTol (fin dtmax) coef).dtmax (fin q * fin dt) = true := by
    show decide (dtmax ≤ q * dt) = true
    rw [decide_eq_true_eq]
    exact hmax.trans (mul_le_mul_of_nonpos_right h2 hdt.le)
  rw [if_pos this]
  refine ⟨?_, ?_⟩
  · show (fin dt * (fin dtmax / fin dt) : XR) = _
    rw [XR.fin_div hdt.ne]
    show (fin (dt * (dtmax / dt)) : XR) = _
    rw [mul_div_cancel₀ dtmax hdt.ne]
  · rw [le_div_iff_of_neg hdt]
    nlinarith

/-- C25 does not limit steps backwards in time: with a positive `dtmax` and `dt < 0` the step grows by the factor `1 + π/2` when the error is zero. -/
theorem pid_backward_unlimited (pow : XR → XR → XR) (eps absTol relTol : XR) (dtmax dt : ℝ) (hdt : dt < 0) (hmax : 0 < dtmax)
    (coef : ℕ → XR) (steps : ℕ) (s : PidState XR) (hs : s.init < 2)
    (hpow : ∀ e : ℝ, 0 < e → pow (fin 0) (fin e) = fin 0) (hA : absTol = fin 1) (hR : relTol = fin 0) :
    (pidAdjust (ops pow eps) (xrPid absTol relTol (fin dtmax) coef) steps (fin dt) [fin 0] [fin 0] [fin 0] s).1 = fin ((1 + Real.pi / 2) * dt) := by
  subst hA hR
  have hrel : relErrorLoop (ops pow eps) (fin 1) (fin 0) (lit 1) (lit 1 * (ops pow eps).abs (fin dt)) [fin 0] [fin 0] [fin 0] = [fin 0] := by
    simp only [relErrorLoop, relError]
    show [(fin |0| / (fin (1 + 0 * (((1 : ℤ) : ℝ) * |0| + ((1 : ℤ) : ℝ) * |dt| * |0|))) : XR)] = _
    rw [XR.fin_div (by simp)]
    simp
  unfold pidAdjust
  simp only [xrPid] at *
  rw [hrel]
  unfold pidErrors
  rw [if_neg (by omega)]
  simp only [if_true, List.map_cons, List.map_nil]
  have hop : pidOp2 (ops pow eps) (lit 7 / lit 10) steps (fin 0) = fin 0 := by
    unfold pidOp2
    have e1 : (-(lit 7 / lit 10) / lit ((steps : ℤ) + 1) : XR) = fin (-(7 / 10) / (steps + 1)) := by
      show ((-(fin ((7 : ℤ) : ℝ) / fin ((10 : ℤ) : ℝ))) / fin (((steps : ℤ) + 1 : ℤ) : ℝ) : XR) = _
      rw [XR.fin_div (by simp)]
      show (fin (-(((7 : ℤ) : ℝ) / ((10 : ℤ) : ℝ))) / fin (((steps : ℤ) + 1 : ℤ) : ℝ) : XR) = _
      rw [XR.fin_div (by push_cast; positivity)]
      push_cast
      rfl
    rw [e1]
    have hneg : -(7 / 10) / ((steps : ℝ) + 1) < 0 := div_neg_of_neg_of_pos (by norm_num) (by positivity)
    unfold adaptedPow
    have c1 : (ops pow eps).eq (fin (-(7 / 10) / ((steps : ℝ) + 1))) (lit 0) = false := by
      show decide (-(7 / 10) / ((steps : ℝ) + 1) = ((0 : ℤ) : ℝ)) = false
      rw [decide_eq_false_iff_not]
      push_cast
      exact hneg.ne
    have c2 : (ops pow eps).lt (lit 0) (fin (-(7 / 10) / ((steps : ℝ) + 1))) = false := by
      show decide (((0 : ℤ) : ℝ) < -(7 / 10) / ((steps : ℝ) + 1)) = false
      rw [decide_eq_false_iff_not]
      push_cast
      exact not_lt.mpr hneg.le
    rw [c1, c2]
    have c3 : (ops pow eps).pow ((ops pow eps).abs (fin 0)) (-(fin (-(7 / 10) / ((steps : ℝ) + 1)))) = fin 0 := by
      show pow (fin |0|) (fin (-(-(7 / 10) / ((steps : ℝ) + 1)))) = _
      rw [abs_zero]
      exact hpow _ (by linarith)
    simp only [Bool.false_eq_true, if_false, c3]
    have d1 : (lit 1 / fin 0 : XR) = inf false := by
      show (if (0 : ℝ) = 0 then (if ((1 : ℤ) : ℝ) = 0 then nan else inf (negative ((1 : ℤ) : ℝ))) else _ : XR) = _
      rw [if_pos rfl, if_neg (by simp)]
      simp [negative]
    rw [d1]
    rfl
  rw [hop]
  have hratio : pidRatio (ops pow eps) ⟨fin 1, fin 0, fin dtmax, coef, XR.atan⟩ [fin 0] = fin (1 + Real.pi / 2) := by
    unfold pidRatio
    have n0 : normInf (ops pow eps) (lit 0) [fin 0] = fin 0 := by
      simp only [normInf, NumOps.max]
      show (if decide (((0 : ℤ) : ℝ) < |0|) = true then _ else lit 0) = _
      rw [if_neg (by simp)]
      show fin ((0 : ℤ) : ℝ) = _
      simp
    rw [n0]
    have d1 : (lit 1 / fin 0 : XR) = inf false := by
      show (if (0 : ℝ) = 0 then (if ((1 : ℤ) : ℝ) = 0 then nan else inf (negative ((1 : ℤ) : ℝ))) else _ : XR) = _
      rw [if_pos rfl, if_neg (by simp)]
      simp [negative]
    rw [d1]
    have e2 : ((inf false - lit 1) / lit 1 : XR) = inf false := by
      show inf (xor false (negative ((1 : ℤ) : ℝ))) = _
      simp [negative]
    rw [e2]
    show (fin (((1 : ℤ) : ℝ) + ((1 : ℤ) : ℝ) * (Real.pi / 2)) : XR) = _
    simp
  rw [hratio]
  unfold pidLimit
  rw [if_neg]
  · show (fin (dt * (1 + Real.pi / 2)) : XR) = _
    rw [mul_comm]
  · show ¬ decide (dtmax ≤ (1 + Real.pi / 2) * dt) = true
    rw [decide_eq_true_eq, not_le]
    have hpi := Real.pi_pos
    nlinarith

/-- C50 is violated by the adjuster as well: if the error estimate is NaN in every component, the step is accepted and the step size increased by the factor
`1 + π/2` (unless `dtmax` limits it). -/
theorem pid_nan_accepted (pow : XR → XR → XR) (eps absTol relTol : XR) (dtmax dt : ℝ) (hmax : (1 + Real.pi / 2) * dt < dtmax)
    (coef : ℕ → XR) (steps : ℕ) (x dxdt : List XR) (hd : dxdt.length = x.length) (s : PidState XR) (hs : s.init < 2)
    (hpow : ∀ e, pow nan e = nan) :
    (pidAdjust (ops pow eps) (xrPid absTol relTol (fin dtmax) coef) steps (fin dt) (List.replicate x.length nan) x dxdt s).1 =
      fin ((1 + Real.pi / 2) * dt) := by
  have hn : IsNaN (ops pow eps) nan := ⟨fun a => by cases a <;> rfl, fun a => by cases a <;> rfl, rfl, fun a => by cases a <;> rfl⟩
  unfold pidAdjust
  simp only [xrPid]
  rw [relErrorLoop_nan (ops pow eps) nan hn _ _ _ _ x.length x dxdt rfl hd]
  unfold pidErrors
  rw [if_neg (by omega)]
  simp only [if_true, List.map_replicate]
  have hop : pidOp2 (ops pow eps) (lit 7 / lit 10) steps nan = nan := by
    unfold pidOp2
    have e1 : (-(lit 7 / lit 10) / lit ((steps : ℤ) + 1) : XR) = fin (-(7 / 10) / (steps + 1)) := by
      show ((-(fin ((7 : ℤ) : ℝ) / fin ((10 : ℤ) : ℝ))) / fin (((steps : ℤ) + 1 : ℤ) : ℝ) : XR) = _
      rw [XR.fin_div (by simp)]
      show (fin (-(((7 : ℤ) : ℝ) / ((10 : ℤ) : ℝ))) / fin (((steps : ℤ) + 1 : ℤ) : ℝ) : XR) = _
      rw [XR.fin_div (by push_cast; positivity)]
      push_cast
      rfl
    rw [e1]
    have hneg : -(7 / 10) / ((steps : ℝ) + 1) < 0 := div_neg_of_neg_of_pos (by norm_num) (by positivity)
    unfold adaptedPow
    have c1 : (ops pow eps).eq (fin (-(7 / 10) / ((steps : ℝ) + 1))) (lit 0) = false := by
      show decide (-(7 / 10) / ((steps : ℝ) + 1) = ((0 : ℤ) : ℝ)) = false
      rw [decide_eq_false_iff_not]
      push_cast
      exact hneg.ne
    have c2 : (ops pow eps).lt (lit 0) (fin (-(7 / 10) / ((steps : ℝ) + 1))) = false := by
      show decide (((0 : ℤ) : ℝ) < -(7 / 10) / ((steps : ℝ) + 1)) = false
      rw [decide_eq_false_iff_not]
      push_cast
      exact not_lt.mpr hneg.le
    rw [c1, c2]
    have c3 : (ops pow eps).pow ((ops pow eps).abs nan) (-(fin (-(7 / 10) / ((steps : ℝ) + 1)))) = nan := hpow _
    simp only [Bool.false_eq_true, if_false, c3]
    rfl
  rw [hop]
  have hratio : pidRatio (ops pow eps) ⟨absTol, relTol, fin dtmax, coef, XR.atan⟩ (List.replicate x.length nan) = fin (1 + Real.pi / 2) := by
    unfold pidRatio
    rw [normInf_nan (ops pow eps) nan hn]
    have d1 : (lit 1 / lit 0 : XR) = inf false := by
      show (if ((0 : ℤ) : ℝ) = 0 then (if ((1 : ℤ) : ℝ) = 0 then nan else inf (negative ((1 : ℤ) : ℝ))) else _ : XR) = _
      rw [if_pos (by simp), if_neg (by simp)]
      simp [negative]
    rw [d1]
    have e2 : ((inf false - lit 1) / lit 1 : XR) = inf false := by
      show inf (xor false (negative ((1 : ℤ) : ℝ))) = _
      simp [negative]
    rw [e2]
    show (fin (((1 : ℤ) : ℝ) + ((1 : ℤ) : ℝ) * (Real.pi / 2)) : XR) = _
    simp
  rw [hratio]
  unfold pidLimit
  rw [if_neg]
  · show (fin (dt * (1 + Real.pi / 2)) : XR) = _
    rw [mul_comm]
  · show ¬ decide (dtmax ≤ (1 + Real.pi / 2) * dt) = true
    rw [decide_eq_true_eq, not_le]
    exact hmax

/-! ## Concrete cases -/

section Examples

/-- with `H211PI` a step with twice the tolerated error is accepted after two steps with half of it -/
example : 9 / 10 ≤ (pidAdjust (realOps 0) (realPid 1 0 9 (pidCoef .H211PI)) 3 1 [2] [0] [0] ⟨fun _ => [1 / 2], fun _ => 1, 2⟩).1 / 1 := by
  have hrel : relErrorLoop (realOps 0) 1 0 1 |(1 : ℝ)| [2] [0] [0] = [2] := by simp [relErrorLoop, relError, realOps]
  rw [pid_accept_iff 0 1 0 9 (pidCoef .H211PI) 3 1 one_ne_zero (by have := Real.pi_lt_d2; rw [abs_one]; linarith) [2] [0] [0]
    ⟨fun _ => [1 / 2], fun _ => 1, 2⟩ le_rfl (by simp) (by rw [hrel]; simp) (by rw [hrel]; simp) (by simp)]
  rw [hrel]
  intro i e1 e2 e3 h1 h2 h3
  cases i with
  | succ i => simp at h1
  | zero =>
    simp only [List.getElem?_cons_zero, Option.some.injEq] at h1 h2 h3
    subst h1 h2 h3
    refine le_trans ?_ one_lt_acceptBound.le
    unfold filteredError
    simp only [pidCoef, List.getD_cons_zero, List.getD_cons_succ, lit]
    norm_num
    rw [show (1 / 2 : ℝ) = 2⁻¹ by norm_num, Real.inv_rpow (by norm_num), ← Real.rpow_neg (by norm_num), ← Real.rpow_add (by norm_num)]
    exact Real.rpow_le_one_of_one_le_of_nonpos (by norm_num) (by norm_num)

/-- the first step is rejected if the error is a thousand times too large (`1000 ^ 0.7 > 3`) -/
example : ¬ 9 / 10 ≤ (pidAdjust (realOps 0) (realPid 1 0 9 (pidCoef .H211PI)) 0 1 [1000] [0] [0] ⟨fun _ => [], fun _ => 1, 0⟩).1 / 1 := by
  have hrel : relErrorLoop (realOps 0) 1 0 1 |(1 : ℝ)| [1000] [0] [0] = [1000] := by simp [relErrorLoop, relError, realOps]
  rw [pid_startup_accept_iff 0 1 0 9 (pidCoef .H211PI) 0 1 one_ne_zero (by have := Real.pi_lt_d2; rw [abs_one]; linarith) [1000] [0] [0]
    ⟨fun _ => [], fun _ => 1, 0⟩ (by norm_num) (by rw [hrel]; simp) (by rw [hrel]; simp), hrel]
  intro h
  have h1 := h 1000 (by simp)
  have hb : acceptBound ≤ 10 := by
    unfold acceptBound
    obtain ⟨h0, -⟩ := tan_tenth
    have hc : (99 : ℝ) / 100 ≤ Real.cos (1 / 10) := by
      have := Real.one_sub_sq_div_two_le_cos (x := 1 / 10)
      norm_num at this ⊢
      linarith
    have hs : Real.sin (1 / 10) ≤ 1 / 10 := Real.sin_le (by norm_num)
    have ht : Real.tan (1 / 10) ≤ 9 / 10 := by
      rw [Real.tan_eq_sin_div_cos, div_le_iff₀ (by linarith)]
      linarith
    rw [div_le_iff₀ (by linarith)]
    linarith
  have h2 : (100 : ℝ) ≤ 1000 ^ ((7 / 10 : ℝ) / ((0 : ℕ) + 1)) := by
    have e1 : (1000 : ℝ) ^ ((7 / 10 : ℝ) / ((0 : ℕ) + 1)) = 10 ^ (21 / 10 : ℝ) := by
      rw [show (1000 : ℝ) = 10 ^ (3 : ℝ) by norm_num, ← Real.rpow_mul (by norm_num)]
      norm_num
    rw [e1]
    calc (100 : ℝ) = 10 ^ (2 : ℝ) := by norm_num
      _ ≤ _ := Real.rpow_le_rpow_of_exponent_le (by norm_num) (by norm_num)
  linarith

/-- a million times the tolerance is accepted -/
example := pid_accepts_any_error 0 4 1000000 (by norm_num) ⟨fun _ => [], fun _ => 0, 0⟩ rfl

/-- two components -/
example : (pidAdjust (realOps 0) (realPid 1 0 9 (pidCoef .H321)) 3 (-1) [1, -1] [0, 0] [0, 0] ⟨fun _ => [1, 1], fun _ => -1, 2⟩).1 = -1 :=
  pid_stationary 0 1 0 9 (pidCoef .H321) 3 (-1) (by norm_num) (by have := Real.pi_lt_d2; rw [abs_neg, abs_one]; linarith) [1, -1] [0, 0] [0, 0]
    ⟨fun _ => [1, 1], fun _ => -1, 2⟩ 1 (by simp [relErrorLoop, relError, realOps, List.replicate]) rfl rfl ⟨rfl, rfl⟩

example := pid_negative_dtmax (fun _ _ => nan) (fin 0) (fin 1) (fin 1) (-3) (-1) (by norm_num) (by have := Real.pi_lt_d2; linarith) (pidCoef .H211PI) 3
  [nan] [fin 1] [inf true] ⟨fun _ => [], fun _ => nan, 0⟩

example := pid_backward_unlimited (fun a _ => a) (fin 0) (fin 1) (fin 0) 1 (-1) (by norm_num) one_pos (pidCoef .H211PI) 3 ⟨fun _ => [], fun _ => nan, 0⟩
  (by norm_num) (fun _ _ => rfl) rfl rfl

example := pid_nan_accepted (fun a _ => a) (fin 0) (fin 1) (fin 0) 3 1 (by have := Real.pi_lt_d2; linarith) (pidCoef .H211PI) 3 [fin 1, fin 2]
  [fin 3, fin 4] rfl ⟨fun _ => [], fun _ => nan, 0⟩ (by norm_num) (fun _ => rfl)

end Examples

end Verif
