import Verif.Props.Rosenbrock
import Mathlib.Analysis.Complex.PhragmenLindelof
import Mathlib.Analysis.Complex.Basic
import Mathlib.Tactic.LinearCombination
import Mathlib.Algebra.Algebra.Bilinear

/-!
# C52, C53: order and stability of `rosenbrock4` with the default coefficients
-/

set_option linter.unusedSectionVars false

namespace Verif

/-! ## C52: right-hand sides that depend on the time only -/

section Quadrature
variable {K V : Type} [Field K] [AddCommGroup V] [Module K V]

/-- The weight with which right-hand sides `e1, .., e6` at the stages enter the result if the Jacobian is zero. -/
def rosQuad (C : RosCoef K) (e1 e2 e3 e4 e5 e6 : K) : K :=
  let G1 := C.gamma * e1
  let G2 := C.gamma * (e2 + C.c21 * G1)
  let G3 := C.gamma * (e3 + C.c31 * G1 + C.c32 * G2)
  let G4 := C.gamma * (e4 + C.c41 * G1 + C.c42 * G2 + C.c43 * G3)
  let G5 := C.gamma * (e5 + C.c51 * G1 + C.c52 * G2 + C.c53 * G3 + C.c54 * G4)
  let G6 := C.gamma * (e6 + C.c61 * G1 + C.c62 * G2 + C.c63 * G3 + C.c64 * G4 + C.c65 * G5)
  C.a51 * G1 + C.a52 * G2 + C.a53 * G3 + C.a54 * G4 + G5 + G6

/-- The weight of `s ^ j` in the result of a step for `x' = sum a_j s ^ j`, `s` the time since the begin of the step. -/
def rosWeight (C : RosCoef K) (j : ℕ) : K :=
  let d : K := if j = 1 then 1 else 0
  rosQuad C (0 ^ j + d * C.d1) (C.c2 ^ j + d * C.d2) (C.c3 ^ j + d * C.d3) (C.c4 ^ j + d * C.d4) 1 1

theorem ros_quadrature (C : RosCoef K) (a0 a1 a2 a3 x : V) (t dt : K) (r : RosStages V) (x1 : V)
    (hg : C.gamma ≠ 0) (hdt : dt ≠ 0)
    (h : IsRosenbrock C (fun _ s => a0 + (s - t) • a1 + (s - t) ^ 2 • a2 + (s - t) ^ 3 • a3) 0 a1 x t dt r x1) :
    x1 = x + (rosWeight C 0 * dt) • a0 + (rosWeight C 1 * dt ^ 2) • a1 + (rosWeight C 2 * dt ^ 3) • a2
      + (rosWeight C 3 * dt ^ 4) • a3 := by
  obtain ⟨s1, s2, s3, s4, s5, y, s6, hx⟩ := h
  have inv : ∀ g b : V, (1 / (C.gamma * dt)) • g - (0 : V →ₗ[K] V) g = b → g = (C.gamma * dt) • b := by
    intro g b e
    rw [LinearMap.zero_apply, sub_zero] at e
    rw [← e, smul_smul, mul_one_div_cancel (mul_ne_zero hg hdt), one_smul]
  replace s1 := inv _ _ s1
  replace s2 := inv _ _ s2
  replace s3 := inv _ _ s3
  replace s4 := inv _ _ s4
  replace s5 := inv _ _ s5
  replace s6 := inv _ _ s6
  clear inv
  simp only [sub_self, add_sub_cancel_left] at s1 s2 s3 s4 s5 s6
  generalize r.g1 = g1 at *
  generalize r.g2 = g2 at *
  generalize r.g3 = g3 at *
  generalize r.g4 = g4 at *
  generalize r.g5 = g5 at *
  generalize r.g6 = g6 at *
  -- the stages in terms of the powers of `dt`
  let E : ℕ → ℕ → K := fun j i => if j = 1 then
      (match i with | 1 => C.d1 | 2 => C.c2 + C.d2 | 3 => C.c3 + C.d3 | 4 => C.c4 + C.d4 | _ => 1)
    else (match i with | 1 => 0 ^ j | 2 => C.c2 ^ j | 3 => C.c3 ^ j | 4 => C.c4 ^ j | _ => 1)
  have st : ∀ j, ∃ G1 G2 G3 G4 G5 G6 : K, G1 = C.gamma * E j 1 ∧ G2 = C.gamma * (E j 2 + C.c21 * G1) ∧
      G3 = C.gamma * (E j 3 + C.c31 * G1 + C.c32 * G2) ∧
      G4 = C.gamma * (E j 4 + C.c41 * G1 + C.c42 * G2 + C.c43 * G3) ∧
      G5 = C.gamma * (E j 5 + C.c51 * G1 + C.c52 * G2 + C.c53 * G3 + C.c54 * G4) ∧
      G6 = C.gamma * (E j 6 + C.c61 * G1 + C.c62 * G2 + C.c63 * G3 + C.c64 * G4 + C.c65 * G5) ∧
      (j < 4 → rosWeight C j = C.a51 * G1 + C.a52 * G2 + C.a53 * G3 + C.a54 * G4 + G5 + G6) := by
    intro j
    refine ⟨_, _, _, _, _, _, rfl, rfl, rfl, rfl, rfl, rfl, fun hj => ?_⟩
    simp only [rosWeight, rosQuad, E]
    by_cases h1 : j = 1
    · subst h1; simp
    · simp [h1]
  obtain ⟨A1, A2, A3, A4, A5, A6, eA1, eA2, eA3, eA4, eA5, eA6, wA⟩ := st 0
  obtain ⟨B1, B2, B3, B4, B5, B6, eB1, eB2, eB3, eB4, eB5, eB6, wB⟩ := st 1
  obtain ⟨D1, D2, D3, D4, D5, D6, eD1, eD2, eD3, eD4, eD5, eD6, wD⟩ := st 2
  obtain ⟨F1, F2, F3, F4, F5, F6, eF1, eF2, eF3, eF4, eF5, eF6, wF⟩ := st 3
  rw [wA (by norm_num), wB (by norm_num), wD (by norm_num), wF (by norm_num)]
  simp [E] at eA1 eA2 eA3 eA4 eA5 eA6 eB1 eB2 eB3 eB4 eB5 eB6 eD1 eD2 eD3 eD4 eD5 eD6 eF1 eF2 eF3 eF4 eF5 eF6
  clear wA wB wD wF st

  have q1 : g1 = (A1 * dt) • a0 + (B1 * dt ^ 2) • a1 + (D1 * dt ^ 3) • a2 + (F1 * dt ^ 4) • a3 := by
    rw [s1, eA1, eB1, eD1, eF1]
    clear * - hdt
    match_scalars <;> field_simp <;> ring
  have q2 : g2 = (A2 * dt) • a0 + (B2 * dt ^ 2) • a1 + (D2 * dt ^ 3) • a2 + (F2 * dt ^ 4) • a3 := by
    rw [s2, q1, eA2, eB2, eD2, eF2]
    clear * - hdt
    match_scalars <;> field_simp <;> ring
  have q3 : g3 = (A3 * dt) • a0 + (B3 * dt ^ 2) • a1 + (D3 * dt ^ 3) • a2 + (F3 * dt ^ 4) • a3 := by
    rw [s3, q1, q2, eA3, eB3, eD3, eF3]
    clear * - hdt
    match_scalars <;> field_simp <;> ring
  have q4 : g4 = (A4 * dt) • a0 + (B4 * dt ^ 2) • a1 + (D4 * dt ^ 3) • a2 + (F4 * dt ^ 4) • a3 := by
    rw [s4, q1, q2, q3, eA4, eB4, eD4, eF4]
    clear * - hdt
    match_scalars <;> field_simp <;> ring
  have q5 : g5 = (A5 * dt) • a0 + (B5 * dt ^ 2) • a1 + (D5 * dt ^ 3) • a2 + (F5 * dt ^ 4) • a3 := by
    rw [s5, q1, q2, q3, q4, eA5, eB5, eD5, eF5]
    clear * - hdt
    match_scalars <;> field_simp <;> ring
  have q6 : g6 = (A6 * dt) • a0 + (B6 * dt ^ 2) • a1 + (D6 * dt ^ 3) • a2 + (F6 * dt ^ 4) • a3 := by
    rw [s6, q1, q2, q3, q4, q5, eA6, eB6, eD6, eF6]
    clear * - hdt
    match_scalars <;> field_simp <;> ring
  rw [hx, y, q1, q2, q3, q4, q5, q6]
  module

/-- the weights of the default coefficients: the one of `s` is wrong -/
theorem ros_weights : |rosWeight (defaultRosenbrock (K := ℝ)) 0 - 1| ≤ 1 / 10 ^ 14 ∧
    (53 / 100 : ℝ) ≤ rosWeight (defaultRosenbrock (K := ℝ)) 1 ∧
    |rosWeight (defaultRosenbrock (K := ℝ)) 2 - 1 / 3| ≤ 1 / 10 ^ 14 ∧
    |rosWeight (defaultRosenbrock (K := ℝ)) 3 - 1 / 4| ≤ 1 / 10 ^ 14 ∧
    |rosWeight (defaultRosenbrock (K := ℝ)) 4 - 1 / 5| ≤ 1 / 10 ^ 14 := by
  refine ⟨?_, ?_, ?_, ?_, ?_⟩
  · rw [abs_le]; constructor <;> norm_num [rosWeight, rosQuad, defaultRosenbrock, frac, lit]
  · norm_num [rosWeight, rosQuad, defaultRosenbrock, frac, lit]
  · rw [abs_le]; constructor <;> norm_num [rosWeight, rosQuad, defaultRosenbrock, frac, lit]
  · rw [abs_le]; constructor <;> norm_num [rosWeight, rosQuad, defaultRosenbrock, frac, lit]
  · rw [abs_le]; constructor <;> norm_num [rosWeight, rosQuad, defaultRosenbrock, frac, lit]

/-- with the opposite sign of `d4` it would be right -/
theorem ros_weight_d4 : |rosWeight ({ defaultRosenbrock (K := ℝ) with d4 := - defaultRosenbrock.d4 }) 1 - 1 / 2| ≤
    1 / 10 ^ 14 := by
  rw [abs_le]; constructor <;> norm_num [rosWeight, rosQuad, defaultRosenbrock, frac, lit]

end Quadrature

/-! ## C53: linear equations -/

section Linear

/-- numerator of the stability function -/
noncomputable def rosP {F : Type} [Field F] (z : F) : F :=
  (1) * z ^ 0
      + (-10000000000000015545481478653780827854222207828032850688161349 / 20000000000000000000000000000000000000000000000000000000000000) * z ^ 1
      + (-1999999999999974126174423523756142384120316956779730573884171797 / 32000000000000000000000000000000000000000000000000000000000000000) * z ^ 2
      + (213333333333331897090900968387075530110038040432473903215225012141 / 5120000000000000000000000000000000000000000000000000000000000000000) * z ^ 3
      + (83333333333333831312291153290411442834637558449016113655476786959 / 12800000000000000000000000000000000000000000000000000000000000000000) * z ^ 4
      + (-5526156304025547578119846798383481659562121568171301431895311109 / 2560000000000000000000000000000000000000000000000000000000000000000) * z ^ 5

/-- one step for `x' = c x`, multiplied with the denominator of the stability function -/
theorem ros_linear {F : Type} [Field F] [Algebra ℝ F] [CharZero F] (c x : F) (t dt : ℝ) (hdt : dt ≠ 0) (r : RosStages F)
    (x1 : F) (h : IsRosenbrock (defaultRosenbrock (K := ℝ)) (fun x _ => c * x) (LinearMap.mulLeft ℝ c) 0 x t dt r x1) :
    (1 - algebraMap ℝ F dt * c / 4) ^ 6 * x1 = rosP (algebraMap ℝ F dt * c) * x := by
  obtain ⟨s1, s2, s3, s4, s5, y, s6, hx⟩ := h
  have hd : algebraMap ℝ F dt ≠ 0 := by simpa using hdt
  simp only [defaultRosenbrock, frac, lit, Algebra.smul_def, LinearMap.mulLeft_apply, smul_zero, add_zero, map_div₀, map_mul,
    map_one, map_intCast, mul_zero] at s1 s2 s3 s4 s5 s6 y hx
  push_cast at s1 s2 s3 s4 s5 s6 y hx
  generalize algebraMap ℝ F dt = τ at *
  generalize r.g1 = g1 at *
  generalize r.g2 = g2 at *
  generalize r.g3 = g3 at *
  generalize r.g4 = g4 at *
  generalize r.g5 = g5 at *
  generalize r.g6 = g6 at *
  generalize r.y = y' at *
  subst y
  obtain ⟨u, hu⟩ : ∃ u, τ * u = 1 := ⟨τ⁻¹, mul_inv_cancel₀ hd⟩
  have hdiv : ∀ a, a / τ = a * u := by
    intro a
    rw [div_eq_iff hd]
    linear_combination (-a) * hu
  have h4 : 1 / (25 / 100 * τ) = 4 * u := by
    rw [div_eq_iff (by simpa using hd)]
    linear_combination (-1 : F) * hu
  simp only [hdiv, h4] at s1 s2 s3 s4 s5 s6
  clear hdiv h4
  obtain ⟨z, hz⟩ : ∃ z, z = τ * c := ⟨_, rfl⟩
  rw [← hz]

  have e1 : (1 - z / 4) * g1 = (z * (x)) / 4 := by
    rw [hz]
    clear * - s1 hu
    linear_combination (τ / 4) * s1 - (g1) * hu
  have e2 : (1 - z / 4) * g2 = (z * (x + (193 / 125) * g1) + (-3543 / 625) * g1) / 4 := by
    rw [hz]
    clear * - s2 hu
    linear_combination (τ / 4) * s2 - (g2 - (-3543 / 625) * g1 / 4) * hu
  have e3 : (1 - z / 4) * g3 = (z * (x + (4733392640407913 / 5000000000000000) * g1 + (639252924745821 / 2500000000000000) * g2) + (-19440746854671 / 8000000000000) * g1 + (-412719831418383 / 2000000000000000) * g2) / 4 := by
    rw [hz]
    clear * - s3 hu
    linear_combination (τ / 4) * s3 - (g3 - (-19440746854671 / 8000000000000) * g1 / 4 - (-412719831418383 / 2000000000000000) * g2 / 4) * hu
  have e4 : (1 - z / 4) * g4 = (z * (x + (3314825187068521 / 1000000000000000) * g1 + (2896124015972201 / 1000000000000000) * g2 + (9986419139977817 / 10000000000000000) * g3) + (-8588232465211 / 80000000000000) * g1 + (-1918912450204671 / 200000000000000) * g2 + (-127939288425601 / 6250000000000) * g3) / 4 := by
    rw [hz]
    clear * - s4 hu
    linear_combination (τ / 4) * s4 - (g4 - (-8588232465211 / 80000000000000) * g1 / 4 - (-1918912450204671 / 200000000000000) * g2 / 4 - (-127939288425601 / 6250000000000) * g3 / 4) * hu
  have e5 : (1 - z / 4) * g5 = (z * (x + (1221224509226641 / 1000000000000000) * g1 + (6019134481288629 / 1000000000000000) * g2 + (1253708332932087 / 100000000000000) * g3 + (-137577207221179 / 200000000000000) * g4) + (7496443313967647 / 1000000000000000) * g1 + (-32021263483261 / 3125000000000) * g2 + (-679998070563981 / 20000000000000) * g3 + (14636136165077 / 1250000000000) * g4) / 4 := by
    rw [hz]
    clear * - s5 hu
    linear_combination (τ / 4) * s5 - (g5 - (7496443313967647 / 1000000000000000) * g1 / 4 - (-32021263483261 / 3125000000000) * g2 / 4 - (-679998070563981 / 20000000000000) * g3 / 4 - (14636136165077 / 1250000000000) * g4 / 4) * hu
  have e6 : (1 - z / 4) * g6 = (z * (x + (1221224509226641 / 1000000000000000) * g1 + (6019134481288629 / 1000000000000000) * g2 + (1253708332932087 / 100000000000000) * g3 + (-137577207221179 / 200000000000000) * g4 + (1) * g5) + (4041623397960761 / 500000000000000) * g1 + (-7981132988064893 / 1000000000000000) * g2 + (-3152159432874371 / 100000000000000) * g3 + (25498914736299 / 1562500000000) * g4 + (-3029409119417027 / 500000000000000) * g5) / 4 := by
    rw [hz]
    clear * - s6 hu
    linear_combination (τ / 4) * s6 - (g6 - (4041623397960761 / 500000000000000) * g1 / 4 - (-7981132988064893 / 1000000000000000) * g2 / 4 - (-3152159432874371 / 100000000000000) * g3 / 4 - (25498914736299 / 1562500000000) * g4 / 4 - (-3029409119417027 / 500000000000000) * g5 / 4) * hu
  have q1 : (1 - z / 4) ^ 1 * g1 = ((1 / 4) * z ^ 1) * x := by
    clear * - e1
    linear_combination (1 - z / 4) ^ 0 * e1
  have q2 : (1 - z / 4) ^ 2 * g2 = ((-1043 / 10000) * z ^ 1
      + (17 / 500) * z ^ 2) * x := by
    clear * - e2 q1
    linear_combination (1 - z / 4) ^ 1 * e2 + ((z * (193 / 125) + (-3543 / 625)) / 4) * (1 - z / 4) ^ 0 * q1
  have q3 : (1 - z / 4) ^ 3 * g3 = ((8279999999999998469 / 80000000000000000000) * z ^ 1
      + (-7256770116599766281 / 200000000000000000000) * z ^ 2
      + (120264317714442531 / 40000000000000000000) * z ^ 3) * x := by
    clear * - e3 q1 q2
    linear_combination (1 - z / 4) ^ 2 * e3 + ((z * (4733392640407913 / 5000000000000000) + (-19440746854671 / 8000000000000)) / 4) * (1 - z / 4) ^ 1 * q1 + ((z * (639252924745821 / 2500000000000000) + (-412719831418383 / 2000000000000000)) / 4) * (1 - z / 4) ^ 0 * q2
  have q4 : (1 - z / 4) ^ 4 * g4 = ((-72400000000000308374949420404869 / 2000000000000000000000000000000000) * z ^ 1
      + (47813271988332773036408333148286013 / 3200000000000000000000000000000000000) * z ^ 2
      + (-141545614125236701434747554813636577 / 8000000000000000000000000000000000000) * z ^ 3
      + (5821845649152654972648583861334827 / 1600000000000000000000000000000000000) * z ^ 4) * x := by
    clear * - e4 q1 q2 q3
    linear_combination (1 - z / 4) ^ 3 * e4 + ((z * (3314825187068521 / 1000000000000000) + (-8588232465211 / 80000000000000)) / 4) * (1 - z / 4) ^ 2 * q1 + ((z * (2896124015972201 / 1000000000000000) + (-1918912450204671 / 200000000000000)) / 4) * (1 - z / 4) ^ 1 * q2 + ((z * (9986419139977817 / 10000000000000000) + (-127939288425601 / 6250000000000)) / 4) * (1 - z / 4) ^ 0 * q3
  have q5 : (1 - z / 4) ^ 5 * g5 = ((-4659234865188505064780858559913 / 10000000000000000000000000000000000000000000000) * z ^ 1
      + (3884163905498841880030051493373511 / 16000000000000000000000000000000000000000000000000) * z ^ 2
      + (-96266568794345930198899976451042418120208505240783 / 2560000000000000000000000000000000000000000000000000) * z ^ 3
      + (54198579305251715534467851951428353271658752807483 / 6400000000000000000000000000000000000000000000000000) * z ^ 4
      + (184287013617812898079645635298967 / 1280000000000000000000000000000000000000000000000000) * z ^ 5) * x := by
    clear * - e5 q1 q2 q3 q4
    linear_combination (1 - z / 4) ^ 4 * e5 + ((z * (1221224509226641 / 1000000000000000) + (7496443313967647 / 1000000000000000)) / 4) * (1 - z / 4) ^ 3 * q1 + ((z * (6019134481288629 / 1000000000000000) + (-32021263483261 / 3125000000000)) / 4) * (1 - z / 4) ^ 2 * q2 + ((z * (1253708332932087 / 100000000000000) + (-679998070563981 / 20000000000000)) / 4) * (1 - z / 4) ^ 1 * q3 + ((z * (-137577207221179 / 200000000000000) + (14636136165077 / 1250000000000)) / 4) * (1 - z / 4) ^ 0 * q4
  have q6 : (1 - z / 4) ^ 6 * g6 = ((2664288680109210613003664335970417149311838651 / 20000000000000000000000000000000000000000000000000000000000000) * z ^ 1
      + (-828795288557486361844690168658695380573884171797 / 32000000000000000000000000000000000000000000000000000000000000000) * z ^ 2
      + (120826017789181525887951801088991106303215225012141 / 5120000000000000000000000000000000000000000000000000000000000000000) * z ^ 3
      + (61936052382428699233864405083895007795425117018182113655476786959 / 12800000000000000000000000000000000000000000000000000000000000000000) * z ^ 4
      + (-2789625589813648692529908127217179693387552035917301431895311109 / 2560000000000000000000000000000000000000000000000000000000000000000) * z ^ 5) * x := by
    clear * - e6 q1 q2 q3 q4 q5
    linear_combination (1 - z / 4) ^ 5 * e6 + ((z * (1221224509226641 / 1000000000000000) + (4041623397960761 / 500000000000000)) / 4) * (1 - z / 4) ^ 4 * q1 + ((z * (6019134481288629 / 1000000000000000) + (-7981132988064893 / 1000000000000000)) / 4) * (1 - z / 4) ^ 3 * q2 + ((z * (1253708332932087 / 100000000000000) + (-3152159432874371 / 100000000000000)) / 4) * (1 - z / 4) ^ 2 * q3 + ((z * (-137577207221179 / 200000000000000) + (25498914736299 / 1562500000000)) / 4) * (1 - z / 4) ^ 1 * q4 + ((z * (1) + (-3029409119417027 / 500000000000000)) / 4) * (1 - z / 4) ^ 0 * q5
  rw [hx, rosP]
  clear * - q1 q2 q3 q4 q5 q6
  linear_combination (1221224509226641 / 1000000000000000) * (1 - z / 4) ^ 5 * q1 + (6019134481288629 / 1000000000000000) * (1 - z / 4) ^ 4 * q2 + (1253708332932087 / 100000000000000) * (1 - z / 4) ^ 3 * q3 + (-137577207221179 / 200000000000000) * (1 - z / 4) ^ 2 * q4 + (1) * (1 - z / 4) ^ 1 * q5 + q6

end Linear
end Verif
