import Verif.Props.RosenbrockOrder

/-!
# C52, C53: consequences for `do_step` of `rosenbrock4`
-/

set_option linter.unusedSectionVars false

namespace Verif
variable {K V W Mat : Type}

/-- what a returned `do_step` has done -/
theorem ros_do_step_ok [Add K] [Sub K] [Mul K] [Div K] [IntCast K] [StateOps K V] {C : RosCoef K}
    {solve : K → Mat → V → V} {sys : Sys K V W} {jac : Jac K V W Mat} {x out : ℕ} {t dt : K} {h h' : Heap K V W}
    (hr : rosDoStep3 C solve sys jac (.user x) t (.user out) dt h = .ok () h') :
    ∃ r w, rosStep C solve sys jac (h.state (.user x)) t dt h.world = .ok r w ∧ h'.state (.user out) = r.x K := by
  have H := (ros_do_step C solve sys jac x out 0 t dt h).2
  cases hs : rosStep C solve sys jac (h.state (.user x)) t dt h.world with
  | ok r w =>
    rw [hs] at H
    obtain ⟨h₁, e1, -, e2, -⟩ := H
    rw [hr] at e1
    injection e1 with _ e1
    subst e1
    exact ⟨r, w, rfl, e2⟩
  | err e w => rw [hs] at H; obtain ⟨_, e1, -⟩ := H; rw [hr] at e1; cases e1
  | ub => rw [hs] at H; simp only at H; rw [hr] at H; cases H
  | div => rw [hs] at H; simp only at H; rw [hr] at H; cases H

section
variable [NormedAddCommGroup V] [NormedSpace ℝ V]

/-- **C52**: for a right-hand side that is a polynomial of degree three in the time, `do_step` with the default
coefficients is exact up to the rounding of the coefficients in the constant, quadratic and cubic part.  Missing: the
linear part, see `ros_time_dependent_wrong`. -/
theorem ros_polynomial_partial (a0 a2 a3 : V) (solve : ℝ → (V →ₗ[ℝ] V) → V → V) (sys : Sys ℝ V W)
    (jac : Jac ℝ V W (V →ₗ[ℝ] V)) (x out : ℕ) (t dt : ℝ) (hdt : dt ≠ 0) (h h' : Heap ℝ V W)
    (hsys : ∀ y s w v w', sys y s w = .ok v w' → v = a0 + (s - t) ^ 2 • a2 + (s - t) ^ 3 • a3)
    (hjac : ∀ y s w r w', jac y s w = .ok r w' → r = (0, ((s - t) * 2) • a2 + ((s - t) ^ 2 * 3) • a3))
    (hsol : Solves solve (1 / (defaultRosenbrock.gamma * dt)) 0)
    (hr : rosDoStep3 defaultRosenbrock solve sys jac (.user x) t (.user out) dt h = .ok () h') :
    ‖h'.state (.user out) - (h.state (.user x) + dt • a0 + (dt ^ 3 / 3) • a2 + (dt ^ 4 / 4) • a3)‖ ≤
      1 / 10 ^ 14 * (|dt| * ‖a0‖ + |dt| ^ 3 * ‖a2‖ + |dt| ^ 4 * ‖a3‖) := by
  obtain ⟨r, w, hs, he⟩ := ros_do_step_ok hr
  have E := ros_step_equations (f := fun _ s => a0 + (s - t) • (0 : V) + (s - t) ^ 2 • a2 + (s - t) ^ 3 • a3)
    (ft := fun _ s => ((s - t) * 2) • a2 + ((s - t) ^ 2 * 3) • a3) (J := fun _ _ => 0)
    defaultRosenbrock solve sys jac
    (fun y s w v w' e => by rw [hsys y s w v w' e]; simp) hjac (h.state (.user x)) t dt h.world w r hsol hs
  simp only [sub_self, zero_mul, zero_smul, add_zero, ne_eq, OfNat.ofNat_ne_zero, not_false_eq_true, zero_pow] at E
  have Q := ros_quadrature defaultRosenbrock a0 0 a2 a3 _ t dt r _ (by norm_num [defaultRosenbrock, frac, lit]) hdt E
  obtain ⟨w0, -, w2, w3, -⟩ := ros_weights
  rw [he, Q]
  generalize rosWeight (defaultRosenbrock (K := ℝ)) 0 = W0 at *
  generalize rosWeight (defaultRosenbrock (K := ℝ)) 1 = W1 at *
  generalize rosWeight (defaultRosenbrock (K := ℝ)) 2 = W2 at *
  generalize rosWeight (defaultRosenbrock (K := ℝ)) 3 = W3 at *
  have e : h.state (.user x) + (W0 * dt) • a0 + (W1 * dt ^ 2) • (0 : V) + (W2 * dt ^ 3) • a2 + (W3 * dt ^ 4) • a3 -
      (h.state (.user x) + dt • a0 + (dt ^ 3 / 3) • a2 + (dt ^ 4 / 4) • a3) =
      ((W0 - 1) * dt) • a0 + ((W2 - 1 / 3) * dt ^ 3) • a2 + ((W3 - 1 / 4) * dt ^ 4) • a3 := by module
  rw [e]
  refine (norm_add₃_le).trans ?_
  rw [norm_smul, norm_smul, norm_smul, Real.norm_eq_abs, Real.norm_eq_abs, Real.norm_eq_abs, abs_mul, abs_mul, abs_mul,
    abs_pow, abs_pow]
  have b1 := mul_le_mul_of_nonneg_right w0 (mul_nonneg (abs_nonneg dt) (norm_nonneg a0))
  have b2 := mul_le_mul_of_nonneg_right w2 (mul_nonneg (pow_nonneg (abs_nonneg dt) 3) (norm_nonneg a2))
  have b3 := mul_le_mul_of_nonneg_right w3 (mul_nonneg (pow_nonneg (abs_nonneg dt) 4) (norm_nonneg a3))
  linarith

end

/-- **C52 is violated**: for `x' = t - t0` the result of one step of `rosenbrock4` from time `t0` is `x + S dt^2` with
`S >= 0.53`, the solution is `x + 0.5 dt^2`: the error of one step is of second order, so the method is of first order
for systems that depend on the time.  (With the opposite sign of the coefficient `d4` the step would be right:
`ros_weight_d4`.) -/
theorem ros_time_dependent_wrong (solve : ℝ → (ℝ →ₗ[ℝ] ℝ) → ℝ → ℝ) (sys : Sys ℝ ℝ W)
    (jac : Jac ℝ ℝ W (ℝ →ₗ[ℝ] ℝ)) (x out : ℕ) (t dt : ℝ) (hdt : dt ≠ 0) (h h' : Heap ℝ ℝ W)
    (hsys : ∀ y s w v w', sys y s w = .ok v w' → v = s - t)
    (hjac : ∀ y s w r w', jac y s w = .ok r w' → r = (0, 1))
    (hsol : Solves solve (1 / (defaultRosenbrock.gamma * dt)) 0)
    (hr : rosDoStep3 defaultRosenbrock solve sys jac (.user x) t (.user out) dt h = .ok () h') :
    (3 / 100) * dt ^ 2 ≤ h'.state (.user out) - (h.state (.user x) + dt ^ 2 / 2) := by
  obtain ⟨r, w, hs, he⟩ := ros_do_step_ok hr
  have E := ros_step_equations (f := fun _ s => (0 : ℝ) + (s - t) • (1 : ℝ) + (s - t) ^ 2 • (0 : ℝ) + (s - t) ^ 3 • (0 : ℝ))
    (ft := fun _ _ => 1) (J := fun _ _ => 0) defaultRosenbrock solve sys jac
    (fun y s w v w' e => by rw [hsys y s w v w' e]; simp) hjac (h.state (.user x)) t dt h.world w r hsol hs
  have Q := ros_quadrature defaultRosenbrock 0 1 0 0 _ t dt r _ (by norm_num [defaultRosenbrock, frac, lit]) hdt E
  obtain ⟨-, w1, -⟩ := ros_weights
  rw [he, Q]
  simp only [smul_eq_mul, mul_zero, add_zero, mul_one]
  have := mul_le_mul_of_nonneg_right w1 (sq_nonneg dt)
  linarith

/-- The hypotheses of `ros_time_dependent_wrong` are met. -/
example : ∃ (solve : ℝ → (ℝ →ₗ[ℝ] ℝ) → ℝ → ℝ) (h' : Heap ℝ ℝ ℕ),
    Solves solve (1 / (defaultRosenbrock.gamma * 1)) 0 ∧
    rosDoStep3 defaultRosenbrock solve (fun _ s w => .ok (s - 0) (w + 1)) (fun _ _ w => .ok (0, 1) (w + 1)) (.user 0) 0
      (.user 1) 1 ⟨fun _ => 0, fun _ => 0, fun _ => false, fun _ => 0, 0⟩ = .ok () h' := by
  refine ⟨fun c _ b => b / c, ?_⟩
  refine ⟨_, ⟨fun b => ?_, rfl⟩⟩
  rw [LinearMap.zero_apply, sub_zero, smul_eq_mul, mul_div_cancel₀]
  norm_num [defaultRosenbrock, frac, lit]

/-! ## C53 -/

/-- the numerator of the stability function on the imaginary axis -/
theorem rosP_imag (y : ℝ) : ‖rosP (-((y : ℂ) * Complex.I))‖ ≤ ‖(1 + (y : ℂ) * Complex.I / 4) ^ 6‖ := by
  have hre : rosP (-((y : ℂ) * Complex.I)) =
      ((((1) - (-1999999999999974126174423523756142384120316956779730573884171797 / 32000000000000000000000000000000000000000000000000000000000000000) * y ^ 2 + (83333333333333831312291153290411442834637558449016113655476786959 / 12800000000000000000000000000000000000000000000000000000000000000000) * y ^ 4 : ℝ) : ℂ)
        + ((-((-10000000000000015545481478653780827854222207828032850688161349 / 20000000000000000000000000000000000000000000000000000000000000) * y - (213333333333331897090900968387075530110038040432473903215225012141 / 5120000000000000000000000000000000000000000000000000000000000000000) * y ^ 3 + (-5526156304025547578119846798383481659562121568171301431895311109 / 2560000000000000000000000000000000000000000000000000000000000000000) * y ^ 5) : ℝ) : ℂ) * Complex.I) := by
    have i2 : Complex.I ^ 2 = -1 := Complex.I_sq
    have i3 : Complex.I ^ 3 = -Complex.I := by rw [pow_succ, i2]; ring
    have i4 : Complex.I ^ 4 = 1 := by rw [show (4 : ℕ) = 2 * 2 from rfl, pow_mul, i2]; norm_num
    have i5 : Complex.I ^ 5 = Complex.I := by rw [pow_succ, i4, one_mul]
    simp only [rosP, neg_pow ((y : ℂ) * Complex.I), mul_pow, i2, i3, i4, i5, pow_one, pow_zero]
    push_cast
    ring
  have hq : (1 + (y : ℂ) * Complex.I / 4) = (((1 : ℝ) : ℂ) + ((y / 4 : ℝ) : ℂ) * Complex.I) := by push_cast; ring
  rw [hre, norm_pow, hq, Complex.norm_add_mul_I, Complex.norm_add_mul_I]
  rw [show ∀ s : ℝ, s ^ 6 = (s ^ 2) ^ 3 from fun s => by ring, Real.sq_sqrt (by positivity)]
  apply Real.sqrt_le_iff.mpr
  refine ⟨by positivity, ?_⟩
  have key : (((1 : ℝ) ^ 2 + (y / 4) ^ 2) ^ 3) ^ 2 - (((1) - (-1999999999999974126174423523756142384120316956779730573884171797 / 32000000000000000000000000000000000000000000000000000000000000000) * y ^ 2 + (83333333333333831312291153290411442834637558449016113655476786959 / 12800000000000000000000000000000000000000000000000000000000000000000) * y ^ 4) ^ 2
      + (-((-10000000000000015545481478653780827854222207828032850688161349 / 20000000000000000000000000000000000000000000000000000000000000) * y - (213333333333331897090900968387075530110038040432473903215225012141 / 5120000000000000000000000000000000000000000000000000000000000000000) * y ^ 3 + (-5526156304025547578119846798383481659562121568171301431895311109 / 2560000000000000000000000000000000000000000000000000000000000000000) * y ^ 5)) ^ 2) = (335936009838830238221318144751779865135824666081420288222446428331266116230365039551482607381804657742500199 / 400000000000000000000000000000000000000000000000000000000000000000000000000000000000000000000000000000000000000000000000000) * y ^ 2 + (244739767885444740048162616163653224999905603869989739947308610434323875429294745549742927479736777470001551026611 / 1024000000000000000000000000000000000000000000000000000000000000000000000000000000000000000000000000000000000000000000000000000000) * y ^ 4 + (182708600093384867548654273694918817781526666164313922611416379765655733476738776145448055227030232370694210188927658312308464431 / 1048576000000000000000000000000000000000000000000000000000000000000000000000000000000000000000000000000000000000000000000000000000000) * y ^ 6 + (541360967043041949130514517215162543960847178426688527855996466378529532993695062197237135511580721229638214166727448509149086547 / 81920000000000000000000000000000000000000000000000000000000000000000000000000000000000000000000000000000000000000000000000000000000000) * y ^ 8 + (6961596503478699764241499616450021960210932234570357285150771525246466142646170584757100116174481172552818265874624060101190119 / 6553600000000000000000000000000000000000000000000000000000000000000000000000000000000000000000000000000000000000000000000000000000000) * y ^ 10 + (1 / 16777216) * y ^ 12 := by ring
  have pos : (0 : ℝ) ≤ (335936009838830238221318144751779865135824666081420288222446428331266116230365039551482607381804657742500199 / 400000000000000000000000000000000000000000000000000000000000000000000000000000000000000000000000000000000000000000000000000) * y ^ 2 + (244739767885444740048162616163653224999905603869989739947308610434323875429294745549742927479736777470001551026611 / 1024000000000000000000000000000000000000000000000000000000000000000000000000000000000000000000000000000000000000000000000000000000) * y ^ 4 + (182708600093384867548654273694918817781526666164313922611416379765655733476738776145448055227030232370694210188927658312308464431 / 1048576000000000000000000000000000000000000000000000000000000000000000000000000000000000000000000000000000000000000000000000000000000) * y ^ 6 + (541360967043041949130514517215162543960847178426688527855996466378529532993695062197237135511580721229638214166727448509149086547 / 81920000000000000000000000000000000000000000000000000000000000000000000000000000000000000000000000000000000000000000000000000000000000) * y ^ 8 + (6961596503478699764241499616450021960210932234570357285150771525246466142646170584757100116174481172552818265874624060101190119 / 6553600000000000000000000000000000000000000000000000000000000000000000000000000000000000000000000000000000000000000000000000000000000) * y ^ 10 + (1 / 16777216) * y ^ 12 := by positivity
  linarith

/-- `|1 + w / 4|` is at least 1 and at least `|w| / 4` in the right half plane -/
theorem ros_den {w : ℂ} (hw : 0 ≤ w.re) : 1 ≤ ‖1 + w / 4‖ ∧ ‖w‖ ≤ 4 * ‖1 + w / 4‖ := by
  have e1 : ‖1 + w / 4‖ ^ 2 = (1 + w.re / 4) ^ 2 + (w.im / 4) ^ 2 := by
    rw [Complex.sq_norm, Complex.normSq_apply]
    simp
    ring
  have e2 : ‖w‖ ^ 2 = w.re ^ 2 + w.im ^ 2 := by rw [Complex.sq_norm, Complex.normSq_apply]; ring
  constructor
  · have : (1 : ℝ) ^ 2 ≤ ‖1 + w / 4‖ ^ 2 := by rw [e1]; nlinarith [sq_nonneg (w.im / 4), sq_nonneg (w.re / 4)]
    exact le_of_sq_le_sq this (norm_nonneg _)
  · have : ‖w‖ ^ 2 ≤ (4 * ‖1 + w / 4‖) ^ 2 := by rw [mul_pow, e1, e2]; nlinarith
    exact le_of_sq_le_sq this (by positivity)

/-- the numerator is at most of degree 5 -/
theorem rosP_bound {w : ℂ} (hw : 0 ≤ w.re) : ‖rosP (-w)‖ ≤ 11 * ‖1 + w / 4‖ ^ 5 := by
  obtain ⟨h1, h2⟩ := ros_den hw
  set q := ‖1 + w / 4‖ with hq
  have hp : ∀ i ≤ 5, ‖w‖ ^ i ≤ 4 ^ i * q ^ 5 := by
    intro i hi
    calc ‖w‖ ^ i ≤ (4 * q) ^ i := pow_le_pow_left₀ (norm_nonneg _) h2 i
      _ = 4 ^ i * q ^ i := mul_pow _ _ _
      _ ≤ 4 ^ i * q ^ 5 := by
        apply mul_le_mul_of_nonneg_left _ (by positivity)
        exact pow_le_pow_right₀ h1 hi
  have b : ∀ (c : ℂ) i, ‖c * (-w) ^ i‖ = ‖c‖ * ‖w‖ ^ i := by intro c i; rw [norm_mul, norm_pow, norm_neg]
  have t := hp 0 (by norm_num)
  have t1 := hp 1 (by norm_num)
  have t2 := hp 2 (by norm_num)
  have t3 := hp 3 (by norm_num)
  have t4 := hp 4 (by norm_num)
  have t5 := hp 5 (by norm_num)
  have q5 : 0 ≤ q ^ 5 := by positivity
  unfold rosP
  refine (norm_add_le _ _).trans ?_
  refine (add_le_add_left (norm_add_le _ _) _).trans ?_
  refine (add_le_add_left (add_le_add_left (norm_add_le _ _) _) _).trans ?_
  refine (add_le_add_left (add_le_add_left (add_le_add_left (norm_add_le _ _) _) _) _).trans ?_
  refine (add_le_add_left (add_le_add_left (add_le_add_left (add_le_add_left (norm_add_le _ _) _) _) _) _).trans ?_
  simp only [b]
  norm_num
  norm_num at t t1 t2 t3 t4 t5
  linarith

/-- the stability function is bounded by 1 in the left half plane -/
theorem ros_stability {z : ℂ} (hz : z.re ≤ 0) : ‖rosP z‖ ≤ ‖(1 - z / 4) ^ 6‖ := by
  have ne : ∀ w : ℂ, 0 ≤ w.re → (1 + w / 4) ^ 6 ≠ 0 := by
    intro w hw
    apply pow_ne_zero
    have := (ros_den hw).1
    intro e
    rw [e, norm_zero] at this
    norm_num at this
  have hd : DiffContOnCl ℂ (fun w : ℂ => rosP (-w) / (1 + w / 4) ^ 6) {w : ℂ | 0 < w.re} := by
    have cl : closure {w : ℂ | 0 < w.re} = {w : ℂ | 0 ≤ w.re} := Complex.closure_setOfPred_lt_re 0
    apply DifferentiableOn.diffContOnCl
    rw [cl]
    apply DifferentiableOn.div
    · unfold rosP; fun_prop
    · fun_prop
    · exact fun w hw => ne w hw
  have bound : ∀ w : ℂ, 0 ≤ w.re → ‖rosP (-w) / (1 + w / 4) ^ 6‖ ≤ 11 := by
    intro w hw
    have h1 := (ros_den hw).1
    rw [norm_div, norm_pow, div_le_iff₀ (by positivity)]
    refine (rosP_bound hw).trans ?_
    have : ‖1 + w / 4‖ ^ 5 ≤ ‖1 + w / 4‖ ^ 6 := pow_le_pow_right₀ h1 (by norm_num)
    linarith
  have main := PhragmenLindelof.right_half_plane_of_bounded_on_real (C := 1) (z := -z) hd ?_ ?_ ?_ (by simpa using hz)
  · rw [norm_div, neg_neg, show 1 + -z / 4 = 1 - z / 4 by ring] at main
    have h0 : 0 < ‖(1 - z / 4) ^ 6‖ := by
      have := ne (-z) (by simpa using hz)
      rw [show 1 + -z / 4 = 1 - z / 4 by ring] at this
      exact norm_pos_iff.mpr this
    rwa [div_le_one h0] at main
  · refine ⟨1, by norm_num, 0, ?_⟩
    simp only [zero_mul, Real.exp_zero]
    rw [Asymptotics.isBigO_one_iff]
    refine ⟨11, ?_⟩
    rw [Filter.eventually_map]
    filter_upwards [Filter.mem_inf_of_right (Filter.mem_principal_self _)] with w hw
    exact bound w (le_of_lt hw)
  · refine ⟨11, ?_⟩
    rw [Filter.eventually_map]
    filter_upwards [Filter.eventually_ge_atTop (0 : ℝ)] with y hy
    exact bound y (by simpa using hy)
  · intro y
    have := rosP_imag y
    rw [norm_div]
    exact div_le_one_of_le₀ this (norm_nonneg _)

/-- **C53**: a linear equation `x' = c x` with a complex coefficient in the closed left half plane: no step of
`rosenbrock4`, however long, increases the absolute value (A-stability), and it is reduced by an arbitrarily large factor
as `|c dt|` grows (L-stability). -/
theorem ros_a_stable (c : ℂ) (hc : c.re ≤ 0) (solve : ℝ → (ℂ →ₗ[ℝ] ℂ) → ℂ → ℂ) (sys : Sys ℝ ℂ W)
    (jac : Jac ℝ ℂ W (ℂ →ₗ[ℝ] ℂ)) (x out : ℕ) (t dt : ℝ) (hdt : 0 < dt) (h h' : Heap ℝ ℂ W)
    (hsys : ∀ y s w v w', sys y s w = .ok v w' → v = c * y)
    (hjac : ∀ y s w r w', jac y s w = .ok r w' → r = (LinearMap.mulLeft ℝ c, 0))
    (hsol : Solves solve (1 / (defaultRosenbrock.gamma * dt)) (LinearMap.mulLeft ℝ c))
    (hr : rosDoStep3 defaultRosenbrock solve sys jac (.user x) t (.user out) dt h = .ok () h') :
    ‖h'.state (.user out)‖ ≤ ‖h.state (.user x)‖ ∧
    ‖1 - dt * c / 4‖ * ‖h'.state (.user out)‖ ≤ 11 * ‖h.state (.user x)‖ := by
  obtain ⟨r, w, hs, he⟩ := ros_do_step_ok hr
  have E := ros_step_equations (f := fun y _ => c * y) (ft := fun _ _ => 0) (J := fun _ _ => LinearMap.mulLeft ℝ c)
    defaultRosenbrock solve sys jac hsys hjac (h.state (.user x)) t dt h.world w r hsol hs
  have L := ros_linear c _ t dt hdt.ne' r _ E
  rw [← he] at L
  simp only [Complex.coe_algebraMap] at L
  have hz : ((dt : ℂ) * c).re ≤ 0 := by
    rw [Complex.re_ofReal_mul]; exact mul_nonpos_of_nonneg_of_nonpos hdt.le hc
  have hb := ros_stability hz
  have hB := rosP_bound (w := -((dt : ℂ) * c)) (by simpa using hz)
  obtain ⟨h1, -⟩ := ros_den (w := -((dt : ℂ) * c)) (by simpa using hz)
  rw [neg_neg] at hB
  rw [show 1 + -((dt : ℂ) * c) / 4 = 1 - (dt : ℂ) * c / 4 by ring] at hB h1
  have Ln := congrArg norm L
  rw [norm_mul, norm_mul, norm_pow] at Ln
  rw [norm_pow] at hb
  set q := ‖1 - (dt : ℂ) * c / 4‖ with hq
  have hq0 : 0 < q := by linarith
  constructor
  · have : q ^ 6 * ‖h'.state (.user out)‖ ≤ q ^ 6 * ‖h.state (.user x)‖ := by
      rw [Ln]; exact mul_le_mul_of_nonneg_right hb (norm_nonneg _)
    exact le_of_mul_le_mul_left this (by positivity)
  · have : q ^ 5 * (q * ‖h'.state (.user out)‖) ≤ q ^ 5 * (11 * ‖h.state (.user x)‖) := by
      calc q ^ 5 * (q * ‖h'.state (.user out)‖) = q ^ 6 * ‖h'.state (.user out)‖ := by ring
        _ = ‖rosP ((dt : ℂ) * c)‖ * ‖h.state (.user x)‖ := Ln
        _ ≤ 11 * q ^ 5 * ‖h.state (.user x)‖ := mul_le_mul_of_nonneg_right hB (norm_nonneg _)
        _ = q ^ 5 * (11 * ‖h.state (.user x)‖) := by ring
    exact le_of_mul_le_mul_left this (by positivity)

/-- The hypotheses of `ros_a_stable` are met: a rotation with damping, solved with division. -/
example : ∃ (solve : ℝ → (ℂ →ₗ[ℝ] ℂ) → ℂ → ℂ) (h' : Heap ℝ ℂ ℕ),
    Solves solve (1 / (defaultRosenbrock.gamma * 1000)) (LinearMap.mulLeft ℝ (-1 + Complex.I)) ∧
    rosDoStep3 defaultRosenbrock solve (fun y _ w => .ok ((-1 + Complex.I) * y) (w + 1))
      (fun _ _ w => .ok (LinearMap.mulLeft ℝ (-1 + Complex.I), 0) (w + 1)) (.user 0) 0 (.user 1) 1000
      ⟨fun _ => 1, fun _ => 0, fun _ => false, fun _ => 0, 0⟩ = .ok () h' := by
  refine ⟨fun c J b => b / (c - J 1), ?_⟩
  refine ⟨_, ⟨fun b => ?_, rfl⟩⟩
  have : ((1 / ((defaultRosenbrock (K := ℝ)).gamma * 1000) : ℝ) : ℂ) - (-1 + Complex.I) ≠ 0 := by
    intro e
    have := congrArg Complex.re e
    norm_num [defaultRosenbrock, frac, lit] at this
  simp only [LinearMap.mulLeft_apply, mul_one, Complex.real_smul]
  field_simp

/-- **C53** for real equations `x' = - l x`, `l >= 0`. -/
theorem ros_decay (l : ℝ) (hl : 0 ≤ l) (solve : ℝ → (ℝ →ₗ[ℝ] ℝ) → ℝ → ℝ) (sys : Sys ℝ ℝ W)
    (jac : Jac ℝ ℝ W (ℝ →ₗ[ℝ] ℝ)) (x out : ℕ) (t dt : ℝ) (hdt : 0 < dt) (h h' : Heap ℝ ℝ W)
    (hsys : ∀ y s w v w', sys y s w = .ok v w' → v = -l * y)
    (hjac : ∀ y s w r w', jac y s w = .ok r w' → r = (LinearMap.mulLeft ℝ (-l), 0))
    (hsol : Solves solve (1 / (defaultRosenbrock.gamma * dt)) (LinearMap.mulLeft ℝ (-l)))
    (hr : rosDoStep3 defaultRosenbrock solve sys jac (.user x) t (.user out) dt h = .ok () h') :
    |h'.state (.user out)| ≤ |h.state (.user x)| ∧
    (1 + dt * l / 4) * |h'.state (.user out)| ≤ 11 * |h.state (.user x)| := by
  obtain ⟨r, w, hs, he⟩ := ros_do_step_ok hr
  have E := ros_step_equations (f := fun y _ => -l * y) (ft := fun _ _ => 0) (J := fun _ _ => LinearMap.mulLeft ℝ (-l))
    defaultRosenbrock solve sys jac hsys hjac (h.state (.user x)) t dt h.world w r hsol hs
  have L := ros_linear (-l) _ t dt hdt.ne' r _ E
  rw [← he] at L
  simp only [Algebra.algebraMap_self, RingHom.id_apply] at L
  have hp : ((rosP (dt * -l) : ℝ) : ℂ) = rosP (((dt * -l : ℝ)) : ℂ) := by simp only [rosP]; push_cast; ring
  have hz : (((dt * -l : ℝ)) : ℂ).re ≤ 0 := by
    rw [Complex.ofReal_re]; nlinarith
  have hb := ros_stability hz
  have hB := rosP_bound (w := -(((dt * -l : ℝ)) : ℂ)) (by simpa using hz)
  rw [neg_neg, ← hp] at hB
  rw [← hp] at hb
  have q1 : ‖(1 : ℂ) + -(((dt * -l : ℝ)) : ℂ) / 4‖ = 1 + dt * l / 4 := by
    rw [show (1 : ℂ) + -(((dt * -l : ℝ)) : ℂ) / 4 = ((1 + dt * l / 4 : ℝ) : ℂ) by push_cast; ring, Complex.norm_real,
      Real.norm_eq_abs, abs_of_pos (by positivity)]
  have q2 : (1 : ℂ) - (((dt * -l : ℝ)) : ℂ) / 4 = (1 : ℂ) + -(((dt * -l : ℝ)) : ℂ) / 4 := by ring
  rw [q1] at hB
  rw [q2, norm_pow, q1] at hb
  rw [Complex.norm_real, Real.norm_eq_abs] at hB hb
  have Ln := congrArg abs L
  rw [abs_mul, abs_mul, abs_pow, show 1 - dt * -l / 4 = 1 + dt * l / 4 by ring,
    abs_of_pos (by positivity : 0 < 1 + dt * l / 4)] at Ln
  set q := 1 + dt * l / 4 with hq
  have hq0 : 0 < q := by positivity
  constructor
  · have : q ^ 6 * |h'.state (.user out)| ≤ q ^ 6 * |h.state (.user x)| := by
      rw [Ln]; exact mul_le_mul_of_nonneg_right hb (abs_nonneg _)
    exact le_of_mul_le_mul_left this (by positivity)
  · have : q ^ 5 * (q * |h'.state (.user out)|) ≤ q ^ 5 * (11 * |h.state (.user x)|) := by
      calc q ^ 5 * (q * |h'.state (.user out)|) = q ^ 6 * |h'.state (.user out)| := by ring
        _ = |rosP (dt * -l)| * |h.state (.user x)| := Ln
        _ ≤ 11 * q ^ 5 * |h.state (.user x)| := mul_le_mul_of_nonneg_right hB (abs_nonneg _)
        _ = q ^ 5 * (11 * |h.state (.user x)|) := by ring
    exact le_of_mul_le_mul_left this (by positivity)

end Verif
