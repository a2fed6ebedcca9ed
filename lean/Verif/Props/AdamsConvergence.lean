import Verif.Lemmas.AdamsGlobal

/-! # C69: convergence of the Adams methods -/

namespace Verif
open Finset Filter Topology

variable {V W : Type} [NormedAddCommGroup V] [NormedSpace ℝ V] [CompleteSpace V]

/-- the formula of `adams_bashforth<N>` -/
theorem ab_formula_order {N : ℕ} (h1 : 1 ≤ N) (h8 : N ≤ 8) {f : V → ℝ → V} (hf : GoodRhs f (N + 1)) {φ : ℝ → V} (hφ : IsFlowLine f φ) {L : ℝ}
    (hL : 0 ≤ L) : FormulaOrder N f φ (fun x ks _ dt => abFormula (abCoef N) x dt ks) L := by
  intro a b
  have hlen := abCoef_length (K := ℝ) N h1 h8
  obtain ⟨K, hK, htr⟩ := formula_truncation_uniform (abCoef N) 0 (fun v x t dt => by
    have := adams_bashforth_exact N h1 h8 v x t dt
    rw [hlen]
    simpa [sub_eq_add_neg, abOrder] using this) h1 hf hφ a b
  refine ⟨absSum (abCoef N) * L, K, mul_nonneg (absSum_nonneg _) hL, hK, ?_⟩
  intro t ht h hh x ks E hl hE0 hE hks
  have hcl := abFormula_close (abCoef N) x (φ t) h ks
    ((List.range (abCoef N : List ℝ).length).map fun j : ℕ => f (φ (t + (0 - j) * h)) (t + (0 - j) * h)) (by rw [hl, hlen]) (by simp) (L * E) (by
      intro j hj
      have e : t + (0 - (j : ℝ)) * h = t - j * h := by ring
      rw [show (((List.range (abCoef N : List ℝ).length).map fun j : ℕ => f (φ (t + (0 - j) * h)) (t + (0 - j) * h)).getD j 0) =
        f (φ (t + (0 - j) * h)) (t + (0 - j) * h) by simp [List.getD, hj], e]
      exact hks j (by rwa [hlen] at hj))
  calc ‖abFormula (abCoef N) x h ks - φ (t + h)‖ ≤ _ := norm_sub_le_norm_sub_add_norm_sub _ _ _
    _ ≤ (‖x - φ t‖ + |h| * (absSum (abCoef N) * (L * E))) + K * |h| ^ (N + 1) := add_le_add hcl (htr t ht h hh)
    _ ≤ (1 + absSum (abCoef N) * L * |h|) * E + K * |h| ^ (N + 1) := by linarith

/-- predictor and corrector of `adams_bashforth_moulton<N>` -/
theorem abm_formula_order {N : ℕ} (h1 : 1 ≤ N) (h8 : N ≤ 8) {f : V → ℝ → V} (hf : GoodRhs f (N + 1)) {φ : ℝ → V} (hφ : IsFlowLine f φ) {L : ℝ}
    (hL : 0 ≤ L) : FormulaOrder N f φ (fun x ks t dt => abFormula (amCoef N) x dt (f (abFormula (abCoef N) x dt ks) (t + dt) :: ks)) L := by
  intro a b
  have hlen := amCoef_length (K := ℝ) N h1 h8
  obtain ⟨L0, hL0⟩ := hf.lipschitz
  obtain ⟨L1, hL1, hlip⟩ : ∃ L1, 0 ≤ L1 ∧ ∀ x y t, ‖f x t - f y t‖ ≤ L1 * ‖x - y‖ :=
    ⟨max L0 0, le_max_right _ _, fun x y t => (hL0 x y t).trans (mul_le_mul_of_nonneg_right (le_max_left _ _) (norm_nonneg _))⟩
  obtain ⟨Λ, K, hΛ, hK, hpred⟩ := ab_formula_order h1 h8 hf hφ hL a b
  obtain ⟨K2, hK2, htr⟩ := formula_truncation_uniform (amCoef N) 1 (fun v x t dt => by
    have := adams_moulton_exact_partial N h1 h8 v x t dt
    rw [hlen]
    have e : ∀ j : ℕ, t + (1 - (j : ℝ)) * dt = t + dt - j * dt := fun j => by ring
    simpa only [e] using this) h1 hf hφ a b
  refine ⟨absSum (amCoef N) * (L1 * (1 + Λ) + L), K2 + absSum (amCoef N) * (L1 * K), mul_nonneg (absSum_nonneg _) (by positivity),
    add_nonneg hK2 (mul_nonneg (absSum_nonneg _) (by positivity)), ?_⟩
  intro t ht h hh x ks E hl hE0 hE hks
  have hp := hpred t ht h hh x ks E hl hE0 hE hks
  set y := abFormula (abCoef N) x h ks with hy
  set E' := L1 * ((1 + Λ) * E + K * |h| ^ (N + 1)) + L * E with hE'
  have hh0 := abs_nonneg h
  have hp' : ‖f y (t + h) - f (φ (t + h)) (t + h)‖ ≤ E' := by
    refine (hlip _ _ _).trans ?_
    have : ‖y - φ (t + h)‖ ≤ (1 + Λ) * E + K * |h| ^ (N + 1) := by
      refine hp.trans (add_le_add_left (mul_le_mul_of_nonneg_right ?_ hE0) _)
      nlinarith
    have := mul_le_mul_of_nonneg_left this hL1
    nlinarith [mul_nonneg hL hE0]
  have hcl := abFormula_close (amCoef N) x (φ t) h (f y (t + h) :: ks)
    ((List.range (amCoef N : List ℝ).length).map fun j : ℕ => f (φ (t + (1 - j) * h)) (t + (1 - j) * h)) (by simp [hl, hlen]) (by simp) E' (by
      intro j hj
      rw [show (((List.range (amCoef N : List ℝ).length).map fun j : ℕ => f (φ (t + (1 - j) * h)) (t + (1 - j) * h)).getD j 0) =
        f (φ (t + (1 - j) * h)) (t + (1 - j) * h) by simp [List.getD, hj]]
      cases j with
      | zero => simpa using hp'
      | succ j =>
        have e : t + (1 - ((j + 1 : ℕ) : ℝ)) * h = t - j * h := by push_cast; ring
        rw [e, List.getD_cons_succ]
        refine (hks j (by omega)).trans ?_
        have : 0 ≤ L1 * ((1 + Λ) * E + K * |h| ^ (N + 1)) := by positivity
        linarith)
  have hA := absSum_nonneg (amCoef N : List ℝ)
  calc ‖abFormula (amCoef N) x h (f y (t + h) :: ks) - φ (t + h)‖ ≤ _ := norm_sub_le_norm_sub_add_norm_sub _ _ _
    _ ≤ (‖x - φ t‖ + |h| * (absSum (amCoef N) * E')) + K2 * |h| ^ (N + 1) := add_le_add hcl (htr t ht h hh)
    _ ≤ (1 + absSum (amCoef N) * (L1 * (1 + Λ) + L) * |h|) * E + (K2 + absSum (amCoef N) * (L1 * K)) * |h| ^ (N + 1) := by
        have h6 : |h| * (absSum (amCoef N) * (L1 * K * |h| ^ (N + 1))) ≤ absSum (amCoef N) * (L1 * K * |h| ^ (N + 1)) :=
          mul_le_of_le_one_left (mul_nonneg hA (by positivity)) hh
        have h7 : |h| * (absSum (amCoef N) * E') = absSum (amCoef N) * (L1 * (1 + Λ) + L) * |h| * E +
            |h| * (absSum (amCoef N) * (L1 * K * |h| ^ (N + 1))) := by rw [hE']; ring
        rw [h7]
        linarith

/-- an Adams stepper that has not made a step since its construction or the last `reset()` -/
def AdamsFresh (N : ℕ) (q : Heap ℝ V W) : Prop := q.nat mFirst < N ∧ q.nat mStepsInit = 0

omit [NormedAddCommGroup V] [NormedSpace ℝ V] [CompleteSpace V] in
theorem AdamsFresh.memory {N : ℕ} {q : Heap ℝ V W} (h : AdamsFresh N q) : AdamsMemory N q [] := ⟨h.1, by simp [h.2], by simp⟩

omit [NormedAddCommGroup V] [NormedSpace ℝ V] [CompleteSpace V] in
theorem past_nil_of_count {N : ℕ} {h : Heap ℝ V W} {past : List V} (hm : AdamsMemory N h past) (h0 : h.nat mStepsInit = 0) : past = [] := by
  have := hm.2.1
  rw [h0] at this
  exact List.eq_nil_of_length_eq_zero (by simpa using this.symm)

/-- **C69**.  `adams_bashforth<N>`, new or after `reset()`, with a Runge-Kutta stepper of order `p` as initialising stepper, converges with the
order `min N (p+1)` inside `integrate_n_steps`, `integrate_const` and `integrate_adaptive`.  `resized h` is the answer of `adjust_size`: the size of the state may
change only as long as the stepper has not made a step. -/
theorem adams_bashforth_converges_partial {N : ℕ} (h1 : 1 ≤ N) (h8 : N ≤ 8) (s : ExplicitStepper ℝ) (hw : s.WellFormed) {p : ℕ} (hp : s.order = some p)
    {sys : Sys ℝ V W} {f : V → ℝ → V} (hs : Evaluates sys f) {n : ℕ} (hn : N + 1 ≤ n) (hpn : p + 1 ≤ n) (hf : GoodRhs f n)
    {φ : ℝ → V} (hφ : IsFlowLine f φ) (resized : Heap ℝ V W → Bool) (hres : ∀ h, resized h = true → h.nat mStepsInit = 0) :
    ConvergesWithOrder (min (abOrder N) (p + 1)) (stepperObject (K := ℝ) fun l t dt h => abStep N (abCoef N) (.explicit s) sys (resized h) l t l dt h)
      (AdamsFresh N) φ := by
  obtain ⟨Φ, r1, r2, r3⟩ := recipe_regular s hw hp hs
  have H := multistep_converges (W := W) (N := N) (p := p) (n := n) (os := abOwners) (g := fun x ks _ dt => abFormula (abCoef N) x dt ks)
    (step := fun l t dt h => abStep N (abCoef N) (.explicit s) sys (resized h) l t l dt h)
    (value := fun past x t dt => abValue N (abCoef N) (.explicit s) sys past x t dt)
    (r := min N (p + 1)) h1 (min_le_left _ _) (min_le_right _ _) hpn hf hφ r2 (fun t => r3 _ _ _ (hf.smoothAt (by omega) _ _) (hφ.isSolution t))
    (fun L hL => ab_formula_order h1 h8 (hf.mono hn) hφ hL) ?_ ?_
  · intro a b
    obtain ⟨C, hC⟩ := H a b
    exact ⟨C, fun eps t0 t1 dt x0 q w l hq => hC eps t0 t1 dt x0 q w l hq.memory⟩
  · intro h past t dt hm
    have := abStep_value' N (abCoef N) (.explicit s) hw sys (resized h) (.user 0) (.user 0) t dt h past hm (user_not_owned _ _) (user_not_owned _ _)
      fun _ => .inl rfl
    have e : (if resized h then [] else past) = past := by
      split
      · rename_i hr
        exact (past_nil_of_count hm (hres h hr)).symm
      · rfl
    rwa [e] at this
  · intro past x t dt w
    obtain ⟨w1, e1⟩ := hs x t w
    unfold abValue
    rw [M.bind_ok e1]
    split
    · obtain ⟨w2, e2⟩ := r1 x t dt w1
      exact ⟨w2, M.bind_ok (m := (InitStepper.explicit s).recipe sys x (f x t) t dt) e2 _⟩
    · exact ⟨w1, rfl⟩

/-- **C69** for `adams_bashforth_moulton<N>`. -/
theorem adams_bashforth_moulton_converges_partial {N : ℕ} (h1 : 1 ≤ N) (h8 : N ≤ 8) (s : ExplicitStepper ℝ) (hw : s.WellFormed) {p : ℕ}
    (hp : s.order = some p) {sys : Sys ℝ V W} {f : V → ℝ → V} (hs : Evaluates sys f) {n : ℕ} (hn : N + 1 ≤ n) (hpn : p + 1 ≤ n)
    (hf : GoodRhs f n) {φ : ℝ → V} (hφ : IsFlowLine f φ) (resized : Heap ℝ V W → Bool)
    (hres : ∀ h, resized h = true → h.nat mStepsInit = 0 ∧ 2 ≤ N) :
    ConvergesWithOrder (min (abmOrder N) (p + 1)) (stepperObject (K := ℝ) fun l t dt h => abmStep N (abCoef N) (amCoef N) (.explicit s) sys (resized h) l t l dt h)
      (AdamsFresh N) φ := by
  obtain ⟨Φ, r1, r2, r3⟩ := recipe_regular s hw hp hs
  have H := multistep_converges (W := W) (N := N) (p := p) (n := n) (os := abmOwners)
    (g := fun x ks t dt => abFormula (amCoef N) x dt (f (abFormula (abCoef N) x dt ks) (t + dt) :: ks))
    (step := fun l t dt h => abmStep N (abCoef N) (amCoef N) (.explicit s) sys (resized h) l t l dt h)
    (value := fun past x t dt => abmValue N (abCoef N) (amCoef N) (.explicit s) sys past x t dt)
    (r := min N (p + 1)) h1 (min_le_left _ _) (min_le_right _ _) hpn hf hφ r2 (fun t => r3 _ _ _ (hf.smoothAt (by omega) _ _) (hφ.isSolution t))
    (fun L hL => abm_formula_order h1 h8 (hf.mono hn) hφ hL) ?_ ?_
  · intro a b
    obtain ⟨C, hC⟩ := H a b
    exact ⟨C, fun eps t0 t1 dt x0 q w l hq => hC eps t0 t1 dt x0 q w l hq.memory⟩
  · intro h past t dt hm
    have hnil : resized h = true → past = [] := fun hr => past_nil_of_count hm (hres h hr).1
    have := abmStep_value N (abCoef N) (amCoef N) (amCoef_length (K := ℝ) N h1 h8).le (.explicit s) hw sys (resized h) (.user 0) (.user 0) t dt h past hm
      (user_not_owned _ _) (user_not_owned _ _) (fun hr => by
        have := (hres h hr).2
        rw [hnil hr]
        simp only [List.length_nil]
        omega) fun _ => .inl rfl
    have e : (if resized h then [] else past) = past := by
      split
      · rename_i hr
        exact (hnil hr).symm
      · rfl
    rwa [e] at this
  · intro past x t dt w
    obtain ⟨w1, e1⟩ := hs x t w
    unfold abmValue
    rw [M.bind_ok e1]
    split
    · obtain ⟨w2, e2⟩ := r1 x t dt w1
      exact ⟨w2, M.bind_ok (m := (InitStepper.explicit s).recipe sys x (f x t) t dt) e2 _⟩
    · obtain ⟨w2, e2⟩ := hs (abFormula (abCoef N) x dt (f x t :: past)) (t + dt) w1
      refine ⟨w2, ?_⟩
      rw [M.bind_ok e2]
      rfl

end Verif
