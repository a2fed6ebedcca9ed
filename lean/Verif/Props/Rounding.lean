import Verif.Lemmas.RoundingRun

/-! # C71: the integrate functions with a fixed step size converge in arithmetic with rounding -/

namespace Verif
open Finset BSeries

variable {W : Type} {d : ℕ}

/-- Convergence with rounding of steppers whose steps are within `O(u)` of those of a one-step method. -/
theorem converges_with_rounding_of {p : ℕ} {f : (Fin d → ℝ) → ℝ → Fin d → ℝ} (hf : GoodRhs f (p + 1)) {Φ : (Fin d → ℝ) → ℝ → ℝ → Fin d → ℝ}
    (hΦ : RegularStep (p + 1) Φ) {φ : ℝ → Fin d → ℝ} (hφ : IsFlowLine f φ) (hord : ∀ t, LocalOrder p (Φ (φ t) t) t φ)
    {st : (ρ : Rounding) → Sys (Fl ρ) (Fin d → Fl ρ) W → BasicStepper (Heap (Fl ρ) (Fin d → Fl ρ) W) (W × Log (Fin d → Fl ρ) (Fl ρ)) (Fin d → Fl ρ) (Fl ρ)}
    {fresh : (ρ : Rounding) → Heap (Fl ρ) (Fin d → Fl ρ) W → Prop}
    (H : ∀ (κ : ℝ → ℝ) (R : ℝ), ∃ v' : RoundedStep W d → Fin d → ℝ, NearV f κ R v' (fun e => Φ e.x e.t e.h) ∧
      ∀ (ρ : Rounding) (sys : Sys (Fl ρ) (Fin d → Fl ρ) W) (g : (Fin d → ℝ) → ℝ → Fin d → ℝ), Evaluates sys (flSys g) →
        ∀ (eps t0 dt : Fl ρ) (x0 : Fin d → Fl ρ) (q : Heap (Fl ρ) (Fin d → Fl ρ) W), fresh ρ q →
        ∃ (X : ℕ → Fin d → Fl ρ) (s : ℕ → Fl ρ) (P : ℕ → Heap (Fl ρ) (Fin d → Fl ρ) W → Prop), X 0 = x0 ∧ P 0 q ∧
          FollowsAny (TimeArith.rounded ρ eps) (st ρ sys) t0 dt X P ∧
          (∀ k, s k = gridTime (TimeArith.rounded ρ eps) t0 dt k ∨ ∃ j, k = j + 1 ∧ s k = gridTime (TimeArith.rounded ρ eps) t0 dt j + dt) ∧
          ∀ k : ℕ, X (k + 1) = v' ⟨ρ, sys, g, flVal (X k), g (flVal (X k)) (s k).val, (gridTime (TimeArith.rounded ρ eps) t0 dt k).val,
            t0.val + k * dt.val, dt.val⟩) : ConvergesWithRounding p f φ st fresh := by
  intro a b κ
  set T := |b - a| + 4 with hTdef
  set S := max |a| |b| with hSdef
  have hT0 : 0 ≤ T := by positivity
  have hT4 : 4 ≤ T := by have := abs_nonneg (b - a); linarith
  have hS0 : 0 ≤ S := le_max_of_le_left (abs_nonneg _)
  obtain ⟨c, hc1, hgridt⟩ := rounded_grid S T hS0 hT0
  set c2 := 1 + (S + T + 1) + 2 * c with hc2
  set c3 := 1 + (2 * S + T + 1) + 2 * c2 with hc3
  obtain ⟨R, hR⟩ := rounded_error (W := W) hf hΦ hφ hord (a - T) (b + T) T κ c2 (by linarith)
  obtain ⟨v', hv', hfol⟩ := H κ R
  obtain ⟨C1, hC1, herr⟩ := hR v' hv'
  refine ⟨max C1 c3, ?_⟩
  set C := max C1 c3 with hC
  have hCC1 : C1 ≤ C := le_max_left _ _
  have hCc3 : c3 ≤ C := le_max_right _ _
  have hC1' : 1 ≤ C := hC1.trans hCC1
  have hC0 : 0 < C := by linarith
  intro ρ sys hacc hsys eps t0 t1 dt x0 q w l hq he0 he1 ht0 ht1 hdt hdt1 bound beyond hsmall
  obtain ⟨g, hg, hgclose⟩ := hsys
  obtain ⟨X, s, P, hX0, hP0, hst, hs, hX⟩ := hfol ρ sys g hg eps t0 dt x0 q hq
  set A := TimeArith.rounded ρ eps with hA
  set τ := gridTime A t0 dt with hτ
  have hu := hacc.nonneg
  have hu1 := hacc.le_one hC1'
  have hdt0 : 0 < |dt.val| := abs_pos.2 hdt
  have hpos : 0 ≤ ‖flVal x0 - φ t0.val‖ + |dt.val| ^ p + ρ.u / |dt.val| := by positivity
  have hab : a ≤ b := ht0.1.trans ht0.2
  have ht0S : |t0.val| ≤ S := abs_le_max_abs_abs ht0.1 ht0.2
  have ht1S : |t1.val| ≤ S := abs_le_max_abs_abs ht1.1 ht1.2
  -- the number of steps is not too large for the number format
  have huk : ∀ k : ℕ, k * |dt.val| ≤ T → ρ.u * k ≤ 1 := by
    intro k hk
    have h1 : C * (ρ.u / |dt.val|) ≤ 1 := by
      refine le_trans (mul_le_mul_of_nonneg_left ?_ hC0.le) hsmall
      have : 0 ≤ ‖flVal x0 - φ t0.val‖ + |dt.val| ^ p := by positivity
      linarith
    have h2 : ρ.u / |dt.val| * (k * |dt.val|) ≤ ρ.u / |dt.val| * C :=
      mul_le_mul_of_nonneg_left (by linarith) (by positivity)
    have h3 : ρ.u / |dt.val| * (k * |dt.val|) = ρ.u * k := by field_simp
    linarith
  -- the times
  have htk : ∀ k : ℕ, k * |dt.val| ≤ T → |(τ k).val - (t0.val + k * dt.val)| ≤ c * ρ.u := fun k hk =>
    hgridt ρ (hacc.mono (by linarith) hc1) eps t0 dt k ht0S hdt1 hk (huk k hk)
  have hadd : ∀ k : ℕ, k * |dt.val| ≤ T → |(τ k + dt).val - (t0.val + (k + 1 : ℕ) * dt.val)| ≤ c2 * ρ.u := by
    intro k hk
    have h1 : |(τ k).val + dt.val - (t0.val + (k + 1 : ℕ) * dt.val)| ≤ c * ρ.u := by
      refine le_trans (le_of_eq ?_) (htk k hk)
      congr 1
      push_cast
      ring
    have h2 : |t0.val + (k + 1 : ℕ) * dt.val| ≤ S + T + 1 := by
      have : |((k + 1 : ℕ) : ℝ) * dt.val| ≤ T + 1 := by
        rw [abs_mul, Nat.abs_cast]
        push_cast
        linarith
      have h3 := abs_add_le t0.val (((k + 1 : ℕ) : ℝ) * dt.val)
      linarith
    exact rnd_step hacc hC1' h1 h2 (by linarith) (by linarith)
  have hk_in : ∀ n : ℕ, n * |dt.val| ≤ T → ∀ k : ℕ, k ≤ n → k * |dt.val| ≤ T := by
    intro n hn k hk
    exact (mul_le_mul_of_nonneg_right (by exact_mod_cast hk) hdt0.le).trans hn
  -- the errors
  have hE : ∀ n : ℕ, n * |dt.val| ≤ T → ∀ k : ℕ, k ≤ n → ‖flVal (X k) - φ (t0.val + k * dt.val)‖ ≤ bound := by
    intro n hn k hk
    have h0 : flVal (X 0) = flVal x0 := by rw [hX0]
    have hsm : C1 * (‖flVal (X 0) - φ t0.val‖ + |dt.val| ^ p + ρ.u / |dt.val|) ≤ 1 := by
      rw [h0]
      exact (mul_le_mul_of_nonneg_right hCC1 hpos).trans hsmall
    have := herr ρ sys g (hacc.mono hCC1 hC1) hg (fun r hr => hgclose r (hr.trans hCC1)) t0.val dt.val n
      (fun k => flVal (X k)) (fun k => (s k).val) (fun k => (τ k).val) hdt hdt1 hn ?_ ?_ (fun k _ => hX k) hsm k hk
    · refine this.trans ?_
      rw [h0]
      exact mul_le_mul_of_nonneg_right hCC1 hpos
    · intro k hk
      have h1 : |(k : ℝ) * dt.val| ≤ T := by
        rw [abs_mul, Nat.abs_cast]
        exact hk_in n hn k hk
      obtain ⟨h2, h3⟩ := abs_le.1 h1
      exact ⟨by linarith [ht0.1], by linarith [ht0.2]⟩
    · intro k hk
      have hkT := hk_in n hn k hk
      refine ⟨?_, (htk k hkT).trans (mul_le_mul_of_nonneg_right (by linarith) hu)⟩
      rcases hs k with h | ⟨j, rfl, h⟩
      · rw [h]
        exact (htk k hkT).trans (mul_le_mul_of_nonneg_right (by linarith) hu)
      · rw [h]
        exact hadd j (hk_in n hn j (by omega))
  have hobs : ∀ n : ℕ, n * |dt.val| ≤ T → (Log.observations (timedObs X τ 0 (n + 1))).length = n + 1 ∧
      (Log.observations (timedObs X τ 0 (n + 1)))[n]? = some (X n, τ n) ∧
      ObservedCloseTo φ t0.val dt.val (C * ρ.u) bound (timedObs X τ 0 (n + 1)) := by
    intro n hn
    rw [timedObs_observations]
    refine ⟨by simp, by simp, ?_⟩
    intro k o ho
    rw [timedObs_observations, List.getElem?_map] at ho
    obtain ⟨i, hi, rfl⟩ := Option.map_eq_some_iff.1 ho
    obtain ⟨hi1, hi2⟩ := List.getElem?_eq_some_iff.1 hi
    simp only [List.getElem_range] at hi2
    subst hi2
    rw [List.length_range] at hi1
    exact ⟨(htk k (hk_in n hn k (by omega))).trans (mul_le_mul_of_nonneg_right (by linarith) hu), hE n hn k (by omega)⟩
  refine ⟨?_, ?_⟩
  · intro n hn
    have hnT : n * |dt.val| ≤ T := by
      have h1 : (n : ℝ) * |dt.val| = |t0.val + n * dt.val - t0.val| := by rw [add_sub_cancel_left, abs_mul, Nat.abs_cast]
      have h2 := le_abs_self (b - a)
      rw [h1, abs_le]
      obtain ⟨a1, a2⟩ := hn
      obtain ⟨b1, b2⟩ := ht0
      constructor <;> linarith
    obtain ⟨w', e⟩ := followAny_nSteps hst n q w l hP0
    rw [hX0] at e
    obtain ⟨o1, o2, o3⟩ := hobs n hnT
    exact ⟨_, _, w', _, e, o1, o2, o3⟩
  · -- the condition of the loop
    have hcond : ∀ k : ℕ, k * |dt.val| ≤ T → ∃ z, |z - beyond (k + 1)| ≤ c3 * ρ.u ∧ A.lessEqWithSign (A.add (τ k) dt) t1 dt = decide (z ≤ eps.val) := by
      intro k hk
      have h1 := hadd k hk
      have h2 : |t0.val + (k + 1 : ℕ) * dt.val - t1.val| ≤ 2 * S + T + 1 := by
        have h3 : |((k + 1 : ℕ) : ℝ) * dt.val| ≤ T + 1 := by
          rw [abs_mul, Nat.abs_cast]
          push_cast
          linarith
        rw [abs_le] at h3 ht0S ht1S ⊢
        constructor <;> linarith
      by_cases hd : 0 < dt.val
      · refine ⟨ρ.rnd ((τ k + dt).val - t1.val), ?_, ?_⟩
        · simp only [beyond, if_pos hd]
          refine rnd_step (c := c2) (S := 2 * S + T + 1) hacc hC1' ?_ h2 (by linarith) (by linarith)
          rwa [sub_sub_sub_cancel_right]
        · unfold TimeArith.lessEqWithSign
          have : A.lt A.zero dt = true := decide_eq_true hd
          rw [if_pos this]
          rfl
      · refine ⟨ρ.rnd (t1.val - (τ k + dt).val), ?_, ?_⟩
        · simp only [beyond, if_neg hd]
          refine rnd_step (c := c2) (S := 2 * S + T + 1) hacc hC1' ?_ (by rwa [abs_sub_comm]) (by linarith) (by linarith)
          rw [sub_sub_sub_cancel_left, abs_sub_comm]
          exact h1
        · unfold TimeArith.lessEqWithSign
          have : ¬ A.lt A.zero dt = true := by
            have : A.lt A.zero dt = false := decide_eq_false hd
            simp [this]
          rw [if_neg this]
          rfl
    have hc3u : c3 * ρ.u ≤ 1 := by
      have h1 := hacc.small
      have h2 : ρ.u * c3 ≤ ρ.u * C := mul_le_mul_of_nonneg_left hCc3 hu
      linarith
    have hbey : ∀ k : ℕ, beyond k ≥ k * |dt.val| - |b - a| := by
      intro k
      have h1 := le_abs_self (b - a)
      simp only [beyond]
      split
      · rename_i hd
        rw [abs_of_pos hd]
        linarith [ht0.1, ht1.2]
      · rename_i hd
        rw [abs_of_nonpos (not_lt.1 hd)]
        linarith [ht0.2, ht1.1]
    -- the loop ends
    obtain ⟨N, hN1, hN2⟩ : ∃ N : ℕ, |b - a| + 3 ≤ N * |dt.val| ∧ N * |dt.val| ≤ T := by
      refine ⟨⌈(|b - a| + 3) / |dt.val|⌉₊, ?_, ?_⟩
      · rw [← div_le_iff₀ hdt0]
        exact Nat.le_ceil _
      · have := (Nat.ceil_lt_add_one (a := (|b - a| + 3) / |dt.val|) (by positivity)).le
        have h2 := mul_le_mul_of_nonneg_right this hdt0.le
        rw [add_mul, div_mul_cancel₀ _ hdt0.ne', one_mul] at h2
        linarith
    have hend : ∃ n, A.lessEqWithSign (A.add (τ n) dt) t1 dt = false := by
      obtain ⟨z, hz1, hz2⟩ := hcond N hN2
      refine ⟨N, ?_⟩
      rw [hz2, decide_eq_false_iff_not, not_le]
      have h1 := hbey (N + 1)
      push_cast at h1
      have h2 := (abs_le.1 hz1).1
      linarith
    classical
    obtain ⟨n, hn, hmin⟩ : ∃ n, A.lessEqWithSign (A.add (τ n) dt) t1 dt = false ∧ ∀ k < n, A.lessEqWithSign (A.add (τ k) dt) t1 dt = true :=
      ⟨Nat.find hend, Nat.find_spec hend, fun k hk => by simpa using Nat.find_min hend hk⟩
    have hnN : n ≤ N := by
      by_contra hlt
      obtain ⟨z, hz1, hz2⟩ := hcond N hN2
      have h0 := hmin N (by omega)
      rw [hz2, decide_eq_true_iff] at h0
      have h1 := hbey (N + 1)
      push_cast at h1
      have h2 := (abs_le.1 hz1).1
      linarith
    have hnT := hk_in N hN2 n hnN
    obtain ⟨w', e⟩ := followAny_const hst t1 n hmin hn q w l hP0
    rw [hX0] at e
    obtain ⟨o1, o2, o3⟩ := hobs n hnT
    have hc3C : c3 * ρ.u ≤ C * ρ.u := mul_le_mul_of_nonneg_right hCc3 hu
    refine ⟨_, n, w', _, _, e, o1, o2, o3, fun hn0 => ?_, ?_⟩
    · obtain ⟨z, hz1, hz2⟩ := hcond (n - 1) (hk_in n hnT (n - 1) (by omega))
      have h0 := hmin (n - 1) (by omega)
      rw [hz2, decide_eq_true_iff] at h0
      rw [show n - 1 + 1 = n by omega] at hz1
      have := (abs_le.1 hz1).1
      linarith
    · obtain ⟨z, hz1, hz2⟩ := hcond n hnT
      rw [hz2, decide_eq_false_iff_not, not_le] at hn
      have := (abs_le.1 hz1).2
      linarith

/-- **C71**.  For every number format, every Runge-Kutta stepper of the library that starts each step anew, Euler's method and the modified midpoint
rule, and every right hand side that is `p + 1` times continuously differentiable and Lipschitz continuous. -/
theorem explicit_steppers_converge_with_rounding (s : FixedStepper) (hw : (s.stepper ℝ).WellFormed) {p : ℕ} (hp : (s.stepper ℝ).order = some p)
    {f : (Fin d → ℝ) → ℝ → Fin d → ℝ} (hf : GoodRhs f (p + 1)) {φ : ℝ → Fin d → ℝ} (hφ : IsFlowLine f φ) :
    ConvergesWithRounding (W := W) p f φ (fun ρ sys => stepperObject fun l t dt => doStep1 (s.stepper (Fl ρ)).impl sys l t dt) fun _ _ => True := by
  obtain ⟨Φ, h1, h2, h3⟩ := recipe_regular (s.stepper ℝ) hw hp (exactSys_evaluates f)
  refine converges_with_rounding_of hf (h2.regular hf) hφ (fun t => h3 _ _ _ (hf.smoothAt (by omega) _ _) (hφ.isSolution t)) fun κ R => ?_
  obtain ⟨v', v, hq, hv', hv⟩ := sim_recipe (W := W) (κ := κ) (R := R) (hf.smooth.of_le (by exact_mod_cast (by omega : 1 ≤ p + 1))) s hw
  have hvΦ : v = fun e => Φ e.x e.t e.h := by
    funext e
    obtain ⟨w1, e1⟩ := hv e ()
    obtain ⟨w2, e2⟩ := h1 e.x e.t e.h ()
    injection e1.symm.trans e2
  rw [hvΦ] at hq
  refine ⟨v', hq, fun ρ sys g hg eps t0 dt x0 q _ => ?_⟩
  set τ := gridTime (TimeArith.rounded ρ eps) t0 dt with hτ
  let next : ℕ → (Fin d → Fl ρ) → Fin d → Fl ρ := fun k x => v' ⟨ρ, sys, g, flVal x, g (flVal x) (τ k).val, (τ k).val, t0.val + k * dt.val, dt.val⟩
  refine ⟨fun k => Nat.rec x0 next k, τ, fun _ _ => True, rfl, trivial, ?_, fun k => .inl rfl, fun k => rfl⟩
  intro k q w l _
  set x : Fin d → Fl ρ := Nat.rec x0 next k
  have hy := hv' ⟨ρ, sys, g, flVal x, g (flVal x) (τ k).val, (τ k).val, t0.val + k * dt.val, dt.val⟩ hg
  obtain ⟨q', w', e⟩ := explicit_step_any (s.stepper (Fl ρ)) (fixed_wellFormed s hw ρ) hg (x := x) (t := τ k) (dt := dt) hy q w l
  exact ⟨q', w', e, trivial⟩

/-- **C71** for `runge_kutta_dopri5`, with a stepper that has not been used (or has been reset). -/
theorem dopri5_converges_with_rounding {f : (Fin d → ℝ) → ℝ → Fin d → ℝ} (hf : GoodRhs f 6) {φ : ℝ → Fin d → ℝ} (hφ : IsFlowLine f φ) (resized : Bool) :
    ConvergesWithRounding (W := W) 5 f φ (fun ρ sys => stepperObject fun l t dt => fsalStep1 dopri5Impl resized sys l t dt)
      fun _ q => q.flag mFirstCall = true := by
  have hreg : RegularStep 6 fun x t h => (dopri5Fun f x (f x t) t h).x := by
    have := (stageFn_isRk dopri5Tableau f).regular hf
    simpa only [dopri5Fun_stages] using this
  refine converges_with_rounding_of (p := 5) hf hreg hφ (fun t => dopri5_order_value (hf.smoothAt (by omega) _ _) (hφ.isSolution t)) fun κ R => ?_
  obtain ⟨v', v, ⟨hq, hk7⟩, hv', hv⟩ := sim_dopri5 (W := W) (κ := κ) (R := R) (hf.smooth.of_le (by norm_num))
  have hvΦ : v = fun e => dopri5Fun f e.x (f e.x e.t) e.t e.h := by
    funext e
    obtain ⟨w1, e1⟩ := hv e ()
    obtain ⟨w2, e2⟩ := dopri5Step_value (exactSys_evaluates f) e.x (f e.x e.t) e.t e.h ()
    injection e1.symm.trans e2
  rw [hvΦ] at hq
  refine ⟨fun e => (v' e).x, hq, fun ρ sys g hg eps t0 dt x0 q hfresh => ?_⟩
  set τ := gridTime (TimeArith.rounded ρ eps) t0 dt with hτ
  -- the time at which the derivative in use was computed
  let s : ℕ → Fl ρ := fun k => if resized then τ k else Nat.casesOn k (τ 0) fun j => τ j + dt
  let env : ℕ → (Fin d → Fl ρ) → RoundedStep W d := fun k x =>
    ⟨ρ, sys, g, flVal x, g (flVal x) (s k).val, (τ k).val, t0.val + k * dt.val, dt.val⟩
  let next : ℕ → (Fin d → Fl ρ) → Fin d → Fl ρ := fun k x => (v' (env k x)).x
  let X : ℕ → Fin d → Fl ρ := fun k => Nat.rec x0 next k
  have hX : ∀ k, X (k + 1) = (v' (env k (X k))).x := fun k => rfl
  refine ⟨X, s, fun k q => (k = 0 ∧ q.flag mFirstCall = true) ∨ (q.flag mFirstCall = false ∧ ∃ j, k = j + 1 ∧ q.state mDxdt = g (X k) (τ j + dt)), rfl,
    .inl ⟨rfl, hfresh⟩, ?_, ?_, fun k => rfl⟩
  · intro k q w l hP
    have hk : (if resized || q.flag mFirstCall then flSys g (X k) (τ k) else q.state mDxdt) = flSys g (X k) (s k) := by
      rcases hP with ⟨rfl, h⟩ | ⟨h, j, rfl, h2⟩
      · rw [h, Bool.or_true, if_pos rfl]
        simp only [s]
        split <;> rfl
      · rw [h, Bool.or_false]
        simp only [s]
        split
        · rfl
        · exact h2
    have hy : Yields (dopri5Step sys (X k) (if resized || q.flag mFirstCall then flSys g (X k) (τ k) else q.state mDxdt) (τ k) dt) (v' (env k (X k))) := by
      rw [hk]
      exact hv' (env k (X k)) hg
    obtain ⟨q', e, h1, h2⟩ := dopri5_step_any hg resized q (X k) (τ k) dt w l hy
    refine ⟨q', q'.world, e, .inr ⟨h2, k, rfl, ?_⟩⟩
    rw [h1]
    exact hk7 (env k (X k))
  · intro k
    simp only [s]
    cases resized
    · cases k with
      | zero => exact .inl rfl
      | succ j => exact .inr ⟨j, rfl, rfl⟩
    · exact .inl rfl

end Verif
