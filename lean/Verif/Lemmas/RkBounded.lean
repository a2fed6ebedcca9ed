import Verif.Lemmas.GlobalError

/-! # Bounds on the results and the error estimates of explicit one-step methods -/

namespace Verif
open Finset BSeries

variable {V W : Type} [NormedAddCommGroup V] [NormedSpace ℝ V]

/-- `Φ x t h` and `E x t h` are the result and the error estimate of some explicit Runge-Kutta formula -/
def IsRkErr (f : V → ℝ → V) (Φ E : V → ℝ → ℝ → V) : Prop :=
  ∃ (n : ℕ) (A : ℕ → ℕ → ℝ) (c b d : ℕ → ℝ) (k : V → ℝ → ℝ → ℕ → V),
    (∀ x t h i, i < n → k x t h i = f (x + h • ∑ j ∈ range i, A i j • k x t h j) (t + c i * h)) ∧
    (∀ x t h, Φ x t h = x + h • ∑ i ∈ range n, b i • k x t h i) ∧ ∀ x t h, E x t h = h • ∑ i ∈ range n, d i • k x t h i

theorem IsRkErr.isRk {f : V → ℝ → V} {Φ E : V → ℝ → ℝ → V} (h : IsRkErr f Φ E) : IsRk f Φ := by
  obtain ⟨n, A, c, b, d, k, h1, h2, -⟩ := h
  exact ⟨n, A, c, b, k, h1, h2⟩

/-- On a bounded interval of times and for bounded step sizes, both increments grow at most linearly with the state and are at most proportional
to the step size. -/
theorem IsRkErr.growth {f : V → ℝ → V} {n : ℕ} (hf : GoodRhs f n) {Φ E : V → ℝ → ℝ → V} (hΦ : IsRkErr f Φ E) (a b B : ℝ) :
    ∃ C, 0 ≤ C ∧ ∀ x, ∀ t ∈ Set.Icc a b, ∀ h, |h| ≤ B → ‖Φ x t h - x‖ ≤ C * |h| * (1 + ‖x‖) ∧ ‖E x t h‖ ≤ C * |h| * (1 + ‖x‖) := by
  obtain ⟨m, A, c, b', d, k, hk, hΦ, hE⟩ := hΦ
  obtain ⟨L0, hL0⟩ := hf.lipschitz
  have hkb : ∀ i, i < m → ∃ C, 0 ≤ C ∧ ∀ x, ∀ t ∈ Set.Icc a b, ∀ h, |h| ≤ B → ‖k x t h i‖ ≤ C * (1 + ‖x‖) := by
    intro i
    induction i using Nat.strong_induction_on with
    | _ i ih =>
      intro hi
      choose! C hC0 hC using fun j (hj : j < i) => ih j hj (by omega)
      -- the right hand side at the origin
      have hcont : Continuous fun t => f 0 t := by
        have : Continuous fun z : V × ℝ => f z.1 z.2 := hf.smooth.continuous
        exact this.comp (continuous_const.prodMk continuous_id)
      obtain ⟨N, hN⟩ := (isCompact_Icc : IsCompact (Set.Icc (a - |c i| * |B|) (b + |c i| * |B|))).exists_bound_of_continuousOn hcont.continuousOn
      set S := ∑ j ∈ range i, |A i j| * C j with hS
      have hS0 : 0 ≤ S := sum_nonneg fun j hj => mul_nonneg (abs_nonneg _) (hC0 j (mem_range.1 hj))
      refine ⟨|N| + |L0| * (1 + |B| * S), by positivity, fun x t ht h hh => ?_⟩
      have hB : |h| ≤ |B| := hh.trans (le_abs_self _)
      have ht' : t + c i * h ∈ Set.Icc (a - |c i| * |B|) (b + |c i| * |B|) := by
        have h1 : |c i * h| ≤ |c i| * |B| := by rw [abs_mul]; exact mul_le_mul_of_nonneg_left hB (abs_nonneg _)
        obtain ⟨h2, h3⟩ := abs_le.1 h1
        exact ⟨by linarith [ht.1], by linarith [ht.2]⟩
      set y := x + h • ∑ j ∈ range i, A i j • k x t h j with hy
      have hyb : ‖y‖ ≤ (1 + |B| * S) * (1 + ‖x‖) := by
        have h1 : ‖∑ j ∈ range i, A i j • k x t h j‖ ≤ S * (1 + ‖x‖) := by
          rw [hS, sum_mul]
          refine (norm_sum_le _ _).trans (sum_le_sum fun j hj => ?_)
          rw [norm_smul, Real.norm_eq_abs, mul_assoc]
          exact mul_le_mul_of_nonneg_left (hC j (mem_range.1 hj) x t ht h hh) (abs_nonneg _)
        have h2 : ‖h • ∑ j ∈ range i, A i j • k x t h j‖ ≤ |B| * (S * (1 + ‖x‖)) := by
          rw [norm_smul, Real.norm_eq_abs]
          exact mul_le_mul hB h1 (norm_nonneg _) (abs_nonneg _)
        have h3 := norm_add_le x (h • ∑ j ∈ range i, A i j • k x t h j)
        rw [← hy] at h3
        nlinarith [norm_nonneg x]
      rw [hk x t h i hi, ← hy]
      have h1 : ‖f y (t + c i * h) - f 0 (t + c i * h)‖ ≤ |L0| * ‖y‖ := by
        have := hL0 y 0 (t + c i * h)
        rw [sub_zero] at this
        exact this.trans (mul_le_mul_of_nonneg_right (le_abs_self _) (norm_nonneg _))
      have h2 : ‖f 0 (t + c i * h)‖ ≤ |N| := (hN _ ht').trans (le_abs_self _)
      have h3 : ‖f y (t + c i * h)‖ ≤ ‖f y (t + c i * h) - f 0 (t + c i * h)‖ + ‖f 0 (t + c i * h)‖ := by
        have := norm_add_le (f y (t + c i * h) - f 0 (t + c i * h)) (f 0 (t + c i * h))
        rwa [sub_add_cancel] at this
      have h4 : |L0| * ‖y‖ ≤ |L0| * ((1 + |B| * S) * (1 + ‖x‖)) := mul_le_mul_of_nonneg_left hyb (abs_nonneg _)
      have h5 : |N| ≤ |N| * (1 + ‖x‖) := le_mul_of_one_le_right (abs_nonneg _) (by linarith [norm_nonneg x])
      calc ‖f y (t + c i * h)‖ ≤ |L0| * ((1 + |B| * S) * (1 + ‖x‖)) + |N| * (1 + ‖x‖) := by linarith
        _ = (|N| + |L0| * (1 + |B| * S)) * (1 + ‖x‖) := by ring
  choose! C hC0 hC using hkb
  have key : ∀ e : ℕ → ℝ, ∀ x, ∀ t ∈ Set.Icc a b, ∀ h, |h| ≤ B →
      ‖h • ∑ i ∈ range m, e i • k x t h i‖ ≤ (∑ i ∈ range m, |e i| * C i) * |h| * (1 + ‖x‖) := by
    intro e x t ht h hh
    rw [norm_smul, Real.norm_eq_abs, mul_comm (∑ i ∈ range m, |e i| * C i), mul_assoc, sum_mul]
    refine mul_le_mul_of_nonneg_left ((norm_sum_le _ _).trans (sum_le_sum fun j hj => ?_)) (abs_nonneg _)
    rw [norm_smul, Real.norm_eq_abs, mul_assoc]
    exact mul_le_mul_of_nonneg_left (hC j (mem_range.1 hj) x t ht h hh) (abs_nonneg _)
  have hpos : ∀ e : ℕ → ℝ, 0 ≤ ∑ i ∈ range m, |e i| * C i := fun e =>
    sum_nonneg fun j hj => mul_nonneg (abs_nonneg _) (hC0 j (mem_range.1 hj))
  refine ⟨(∑ i ∈ range m, |b' i| * C i) + ∑ i ∈ range m, |d i| * C i, add_nonneg (hpos _) (hpos _), fun x t ht h hh => ⟨?_, ?_⟩⟩
  · rw [hΦ, add_sub_cancel_left]
    refine (key b' x t ht h hh).trans ?_
    rw [add_mul, add_mul]
    exact le_add_of_nonneg_right (mul_nonneg (mul_nonneg (hpos _) (abs_nonneg _)) (by positivity))
  · rw [hE]
    refine (key d x t ht h hh).trans ?_
    rw [add_mul, add_mul]
    exact le_add_of_nonneg_left (mul_nonneg (mul_nonneg (hpos _) (abs_nonneg _)) (by positivity))

end Verif
