import Verif.Props.StepAdjust
import Mathlib.Data.List.Perm.Basic
import Mathlib.Order.Bounds.Basic

/-!
# C21, C50: the error test
-/

namespace Verif

variable {eps : ℝ}

/-! ## C21 -/

/-- One component of the state: error estimate, value, derivative. -/
structure Component where
  err : ℝ
  x : ℝ
  dxdt : ℝ

/-- The weighted error of a component: `|err| / (eps_abs + eps_rel (a_x |x| + a_dxdt |dt| |dxdt|))`. -/
noncomputable def Component.weight (epsAbs epsRel aX aDxdt dt : ℝ) (c : Component) : ℝ :=
  |c.err| / (epsAbs + epsRel * (aX * |c.x| + aDxdt * |dt| * |c.dxdt|))

/-- What the default error checker returns for a state with the given components. -/
noncomputable def checkerValue (eps epsAbs epsRel aX aDxdt dt : ℝ) (l : List Component) : ℝ :=
  ((defaultErrorChecker (realOps eps) epsAbs epsRel aX aDxdt).error (l.map (·.x)) (l.map (·.dxdt)) (l.map (·.err))
    dt).2

theorem relErrorLoop_map (epsAbs epsRel aX aDxdt : ℝ) (l : List Component) :
    relErrorLoop (realOps eps) epsAbs epsRel aX aDxdt (l.map (·.err)) (l.map (·.x)) (l.map (·.dxdt)) =
      l.map fun c => |c.err| / (epsAbs + epsRel * (aX * |c.x| + aDxdt * |c.dxdt|)) := by
  induction l with
  | nil => rfl
  | cons c l ih => simp only [List.map_cons, relErrorLoop, ih, relError]; rfl

theorem normInf_real (l : List ℝ) : ∀ init : ℝ, normInf (realOps eps) init l = l.foldl (fun a v => max a |v|) init := by
  induction l with
  | nil => intro init; rfl
  | cons v l ih =>
    intro init
    rw [normInf, realOps_max, ih]
    rfl

theorem foldl_max_spec (l : List ℝ) : ∀ init : ℝ, init ≤ l.foldl (fun a v => max a |v|) init ∧
    (∀ v ∈ l, |v| ≤ l.foldl (fun a v => max a |v|) init) ∧
    (l.foldl (fun a v => max a |v|) init = init ∨ ∃ v ∈ l, l.foldl (fun a v => max a |v|) init = |v|) := by
  induction l with
  | nil => intro init; simp
  | cons v l ih =>
    intro init
    obtain ⟨h1, h2, h3⟩ := ih (max init |v|)
    simp only [List.foldl_cons]
    refine ⟨(le_max_left _ _).trans h1, ?_, ?_⟩
    · intro u hu
      rcases List.mem_cons.mp hu with rfl | hu
      · exact (le_max_right _ _).trans h1
      · exact h2 u hu
    · rcases h3 with h3 | ⟨u, hu, h3⟩
      · rcases le_total init |v| with h | h
        · right; exact ⟨v, by simp, by rw [h3, max_eq_right h]⟩
        · left; rw [h3, max_eq_left h]
      · right; exact ⟨u, by simp [hu], h3⟩

variable (epsAbs epsRel aX aDxdt dt : ℝ)

/-- C21: the value of the default error checker is the greatest of `0` and the weighted errors of the components,
for every size of the state, provided no weight is negative (the tolerances and factors are not negative). -/
theorem error_checker_norm (h1 : 0 ≤ epsAbs) (h2 : 0 ≤ epsRel) (h3 : 0 ≤ aX) (h4 : 0 ≤ aDxdt) (l : List Component) :
    IsGreatest (insert 0 {w | ∃ c ∈ l, w = c.weight epsAbs epsRel aX aDxdt dt})
      (checkerValue eps epsAbs epsRel aX aDxdt dt l) := by
  have hv : checkerValue eps epsAbs epsRel aX aDxdt dt l =
      (l.map fun c => c.weight epsAbs epsRel aX aDxdt dt).foldl (fun a v => max a |v|) 0 := by
    have e0 : (lit 0 : ℝ) = 0 := by simp [lit]
    have e1 : (realOps eps).abs dt = |dt| := rfl
    simp only [checkerValue, defaultErrorChecker]
    rw [normInf_real, e0, e1, relErrorLoop_map]
    rfl
  have pos : ∀ c : Component, 0 ≤ c.weight epsAbs epsRel aX aDxdt dt := by
    intro c; unfold Component.weight; positivity
  obtain ⟨s1, s2, s3⟩ := foldl_max_spec (l.map fun c => c.weight epsAbs epsRel aX aDxdt dt) 0
  rw [← hv] at s1 s2 s3
  constructor
  · rcases s3 with s3 | ⟨v, hv', s3⟩
    · left; exact s3
    · right
      obtain ⟨c, hc, rfl⟩ := List.mem_map.mp hv'
      exact ⟨c, hc, by rw [s3, abs_of_nonneg (pos c)]⟩
  · rintro w (rfl | ⟨c, hc, rfl⟩)
    · exact s1
    · have := s2 _ (List.mem_map.mpr ⟨c, hc, rfl⟩)
      rwa [abs_of_nonneg (pos c)] at this

/-- C21: with a positive absolute tolerance, the error test `value ≤ 1` holds iff every component satisfies
`|err| ≤ eps_abs + eps_rel (a_x |x| + a_dxdt |dt| |dxdt|)`. -/
theorem error_checker_le_one (h1 : 0 < epsAbs) (h2 : 0 ≤ epsRel) (h3 : 0 ≤ aX) (h4 : 0 ≤ aDxdt)
    (l : List Component) :
    checkerValue eps epsAbs epsRel aX aDxdt dt l ≤ 1 ↔
      ∀ c ∈ l, |c.err| ≤ epsAbs + epsRel * (aX * |c.x| + aDxdt * |dt| * |c.dxdt|) := by
  have G := error_checker_norm (eps := eps) epsAbs epsRel aX aDxdt dt h1.le h2 h3 h4 l
  have den : ∀ c : Component, 0 < epsAbs + epsRel * (aX * |c.x| + aDxdt * |dt| * |c.dxdt|) := by
    intro c; positivity
  constructor
  · intro h c hc
    have : c.weight epsAbs epsRel aX aDxdt dt ≤ 1 := (G.2 (Or.inr ⟨c, hc, rfl⟩)).trans h
    rw [Component.weight, div_le_one (den c)] at this
    exact this
  · intro h
    rcases G.1 with h0 | ⟨c, hc, hw⟩
    · rw [h0]; norm_num
    · rw [hw, Component.weight, div_le_one (den c)]
      exact h c hc

/-- C21: the value is not negative and does not depend on the order of the components. -/
theorem error_checker_perm (h1 : 0 ≤ epsAbs) (h2 : 0 ≤ epsRel) (h3 : 0 ≤ aX) (h4 : 0 ≤ aDxdt) {l l' : List Component}
    (hp : l.Perm l') :
    0 ≤ checkerValue eps epsAbs epsRel aX aDxdt dt l ∧
    checkerValue eps epsAbs epsRel aX aDxdt dt l = checkerValue eps epsAbs epsRel aX aDxdt dt l' := by
  have G := error_checker_norm (eps := eps) epsAbs epsRel aX aDxdt dt h1 h2 h3 h4 l
  have G' := error_checker_norm (eps := eps) epsAbs epsRel aX aDxdt dt h1 h2 h3 h4 l'
  refine ⟨G.2 (Or.inl rfl), ?_⟩
  have : (insert 0 {w | ∃ c ∈ l, w = c.weight epsAbs epsRel aX aDxdt dt} : Set ℝ) =
      insert 0 {w | ∃ c ∈ l', w = c.weight epsAbs epsRel aX aDxdt dt} := by
    ext w
    simp only [Set.mem_insert_iff, Set.mem_setOf_eq, hp.mem_iff]
  rw [this] at G
  exact G.unique G'

/-- The hypotheses are met by the default parameters `1e-6, 1e-6, 1, 1`. -/
example (l : List Component) (hl : ∀ c ∈ l, c.err = 0) : checkerValue 0 (1 / 1000000) (1 / 1000000) 1 1 dt l ≤ 1 :=
  (error_checker_le_one _ _ _ _ dt (by norm_num) (by norm_num) (by norm_num) (by norm_num) l).mpr
    fun c hc => by rw [hl c hc, abs_zero]; positivity

/-- C17 and C21 together: with the default error checker and the test `> 1`, a `try_step` within the step-size limit
succeeds iff every component of the error estimate is within its tolerance. -/
theorem try_step_success_iff {W : Type} [StateOps ℝ (List ℝ)] (P : CtrlParams ℝ (List ℝ)) (s : ErrorStepper ℝ)
    (hs : s.WellFormed) (sys : Sys ℝ (List ℝ) W) (n : ℕ) (t dt : ℝ)
    (hP : P.checker = defaultErrorChecker (realOps eps) epsAbs epsRel aX aDxdt)
    (hg : ∀ e, P.gtOne e = decide (1 < e))
    (h1 : 0 < epsAbs) (h2 : 0 ≤ epsRel) (h3 : 0 ≤ aX) (h4 : 0 ≤ aDxdt)
    (hlim : P.adjuster.checkStepSizeLimit dt = true)
    (h h' : Heap ℝ (List ℝ) W) (r : TryOut ℝ) (hr : tryStep1 P s.errImpl sys (.user n) t dt h = .ok r h') :
    ∃ k w y e, sys (h.state (.user n)) t h.world = .ok k w ∧
      s.errRecipe sys (h.state (.user n)) k t dt w = .ok (y, e) h'.world ∧
      ∀ l : List Component, l.map (·.x) = h.state (.user n) → l.map (·.dxdt) = k → l.map (·.err) = e →
        (r.success = true ↔ ∀ c ∈ l, |c.err| ≤ epsAbs + epsRel * (aX * |c.x| + aDxdt * |dt| * |c.dxdt|)) := by
  obtain ⟨-, k, w, hk, hcase⟩ := try_step_result P s hs sys n t dt h h' r hr
  rcases hcase with ⟨hc, -⟩ | ⟨hc, y, e, hst, hcase⟩
  · rw [hlim] at hc; cases hc
  refine ⟨k, w, y, e, hk, hst, fun l l1 l2 l3 => ?_⟩
  rw [← error_checker_le_one (eps := eps) epsAbs epsRel aX aDxdt dt h1 h2 h3 h4 l]
  have ev : (P.checker.error (h.state (.user n)) k e dt).2 = checkerValue eps epsAbs epsRel aX aDxdt dt l := by
    rw [hP, checkerValue, l1, l2, l3]
  simp only [ev, hg] at hcase
  rcases hcase with ⟨hgt, rfl, -⟩ | ⟨hgt, rfl, -⟩
  · simpa using of_decide_eq_true hgt
  · simpa using hgt

end Verif

/-! ## C50: error estimates that are not a number -/

namespace Verif
variable {K V W : Type} [Add K] [Sub K] [Mul K] [Div K] [Neg K] [IntCast K]

/-- What IEEE arithmetic guarantees about a value `nan`. -/
structure IsNaN (O : NumOps K) (nan : K) : Prop where
  lt_right : ∀ a, O.lt a nan = false
  lt_left : ∀ a, O.lt nan a = false
  abs : O.abs nan = nan
  div : ∀ a, nan / a = nan

/-- NaN entries do not count in the maximum norm. -/
theorem normInf_nan (O : NumOps K) (nan : K) (hn : IsNaN O nan) (n : ℕ) :
    ∀ init, normInf O init (List.replicate n nan) = init := by
  induction n with
  | zero => intro init; rfl
  | succ n ih =>
    intro init
    rw [List.replicate_succ, normInf, hn.abs, NumOps.max, hn.lt_right]
    exact ih init

theorem relErrorLoop_nan (O : NumOps K) (nan : K) (hn : IsNaN O nan) (epsAbs epsRel aX aDxdt : K) (n : ℕ) :
    ∀ x d : List K, x.length = n → d.length = n →
      relErrorLoop O epsAbs epsRel aX aDxdt (List.replicate n nan) x d = List.replicate n nan := by
  induction n with
  | zero => intro x d hx hd; rfl
  | succ n ih =>
    intro x d hx hd
    obtain ⟨a, x, rfl⟩ := List.exists_cons_of_length_eq_add_one hx
    obtain ⟨b, d, rfl⟩ := List.exists_cons_of_length_eq_add_one hd
    simp only [List.replicate_succ, relErrorLoop, relError, hn.abs, hn.div]
    rw [ih x d (by simpa using hx) (by simpa using hd)]

/-- C50 is violated: when the error estimate computed by the stepper consists of NaNs only (for instance because
the right-hand side returned a NaN), the weighted error is `0`. -/
theorem nan_error_is_zero (O : NumOps K) (nan : K) (hn : IsNaN O nan) (epsAbs epsRel aX aDxdt dt : K)
    (x d : List K) (hd : d.length = x.length) :
    ((defaultErrorChecker O epsAbs epsRel aX aDxdt).error x d (List.replicate x.length nan) dt).2 = lit 0 := by
  simp only [defaultErrorChecker]
  rw [relErrorLoop_nan O nan hn _ _ _ _ x.length x d rfl hd, normInf_nan O nan hn]

/-- C50 is violated: `try_step` accepts a step whose error estimate is NaN in every component, for every state size,
every tolerance and every stepper. -/
theorem nan_step_accepted [StateOps K (List K)] (O : NumOps K) (nan : K) (hn : IsNaN O nan)
    (epsAbs epsRel aX aDxdt : K) (P : CtrlParams K (List K)) (s : ErrorStepper K) (hs : s.WellFormed)
    (sys : Sys K (List K) W) (n : ℕ) (t dt : K)
    (hP : P.checker = defaultErrorChecker O epsAbs epsRel aX aDxdt) (hg : P.gtOne (lit 0) = false)
    (hlim : P.adjuster.checkStepSizeLimit dt = true) (h h' : Heap K (List K) W) (r : TryOut K)
    (hr : tryStep1 P s.errImpl sys (.user n) t dt h = .ok r h')
    (hnan : ∀ k w y e w', sys (h.state (.user n)) t h.world = .ok k w →
      s.errRecipe sys (h.state (.user n)) k t dt w = .ok (y, e) w' →
      k.length = (h.state (.user n)).length ∧ e = List.replicate (h.state (.user n)).length nan) :
    r.success = true ∧ r.t = t + dt ∧ r.dt = P.adjuster.increaseStep dt (lit 0) P.stepperOrder := by
  obtain ⟨-, k, w, hk, hcase⟩ := try_step_result P s hs sys n t dt h h' r hr
  rcases hcase with ⟨hc, -⟩ | ⟨hc, y, e, hst, hcase⟩
  · rw [hlim] at hc; cases hc
  obtain ⟨hkl, rfl⟩ := hnan k w y e _ hk hst
  have ev : (P.checker.error (h.state (.user n)) k (List.replicate (h.state (.user n)).length nan) dt).2 = lit 0 := by
    rw [hP]; exact nan_error_is_zero O nan hn _ _ _ _ dt _ k hkl
  simp only [ev, hg] at hcase
  rcases hcase with ⟨hgt, -⟩ | ⟨-, rfl, -⟩
  · cases hgt
  · exact ⟨rfl, rfl, rfl⟩

/-! A concrete arithmetic with NaN, and a step that is accepted although everything is NaN. -/

/-- The rational numbers with a NaN (`none`). -/
def NanRat := Option ℚ

namespace NanRat

def op (f : ℚ → ℚ → ℚ) : NanRat → NanRat → NanRat
  | some a, some b => some (f a b)
  | _, _ => none

instance : Add NanRat := ⟨op (· + ·)⟩
instance : Sub NanRat := ⟨op (· - ·)⟩
instance : Mul NanRat := ⟨op (· * ·)⟩
instance : Div NanRat := ⟨op (· / ·)⟩
instance : Neg NanRat := ⟨Option.map (- ·)⟩
instance : IntCast NanRat := ⟨fun n => some (n : ℚ)⟩

/-- comparisons with NaN are false -/
def cmp (f : ℚ → ℚ → Bool) : NanRat → NanRat → Bool
  | some a, some b => f a b
  | _, _ => false

def ops : NumOps NanRat where
  lt := cmp fun a b => decide (a < b)
  le := cmp fun a b => decide (a ≤ b)
  eq := cmp fun a b => decide (a = b)
  abs := Option.map fun a => |a|
  pow := op fun _ _ => 1
  eps := some 0

theorem isNaN : IsNaN ops (none : NanRat) where
  lt_right a := by cases a <;> rfl
  lt_left a := rfl
  abs := rfl
  div a := rfl

/-- states with one component -/
instance : StateOps NanRat (List NanRat) :=
  ⟨fun l => [l.foldr (fun p a => p.1 * (p.2.headD (some 0)) + a) (some 0 : NanRat)]⟩

def ctrl : CtrlParams NanRat (List NanRat) where
  gtOne e := ops.lt (some 1) e
  checker := defaultErrorChecker ops (some (1 / 1000000)) (some (1 / 1000000)) (some 1) (some 1)
  adjuster := ⟨fun dt _ _ => dt, fun dt _ _ => dt, fun _ => true, some 0⟩
  stepperOrder := 1
  errorOrder := 2

/-- Euler's method with the error estimate `dt k1 / 2`. -/
def stepper : ErrorStepper NanRat := .generic ⟨[], [some 1], [some 0]⟩ [some (1 / 2)]

/-- a right-hand side that returns NaN -/
def sys : Sys NanRat (List NanRat) ℕ := fun _ _ => pure [none]

end NanRat

/-- C50 is violated, a concrete run: the right-hand side returns NaN, and `try_step` reports success and stores NaN in
the state. -/
theorem nan_accepted_witness (h : Heap NanRat (List NanRat) ℕ) (hx : h.state (.user 0) = [some 1]) :
    ∃ r h', tryStep1 NanRat.ctrl NanRat.stepper.errImpl NanRat.sys (.user 0) (some 0) (some 1) h = .ok r h' ∧
      r.success = true ∧ h'.state (.user 0) = [none] := by
  have wf : NanRat.stepper.WellFormed := ⟨rfl, rfl, fun i hi => by simp at hi⟩
  have tot : ∀ v t w, ∃ v' w', NanRat.sys v t w = .ok v' w' := fun v t w => ⟨[none], w, rfl⟩
  obtain ⟨r, h', hr⟩ := try_step_returns NanRat.ctrl NanRat.stepper wf NanRat.sys tot 0 (some 0) (some 1) h
  have acc := nan_step_accepted NanRat.ops none NanRat.isNaN _ _ _ _ NanRat.ctrl NanRat.stepper wf NanRat.sys 0
    (some 0) (some 1) rfl (by change decide ((1 : ℚ) < ((0 : ℤ) : ℚ)) = false; norm_num) rfl h h' r hr (by
      intro k w y e w' hk hst
      rw [hx] at hst ⊢
      cases hk
      cases hst
      exact ⟨rfl, rfl⟩)
  refine ⟨r, h', hr, acc.1, ?_⟩
  obtain ⟨-, k, w, hk, hcase⟩ := try_step_result NanRat.ctrl NanRat.stepper wf NanRat.sys 0 _ _ h h' r hr
  rcases hcase with ⟨hc, -⟩ | ⟨hc, y, e, hst, hcase⟩
  · cases hc
  · rcases hcase with ⟨-, hrr, -⟩ | ⟨-, -, hy⟩
    · rw [hrr] at acc; cases acc.1
    · rw [hy]
      cases hk
      injection hst with h1 _
      rw [← (Prod.mk.inj h1).1, hx]
      rfl

end Verif
