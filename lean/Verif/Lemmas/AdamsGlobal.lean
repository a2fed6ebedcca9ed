import Verif.Lemmas.AdamsError
import Verif.Props.Convergence
import Verif.Props.Multistep

/-! # Global errors of the Adams methods -/

namespace Verif
open Finset Filter Topology

variable {V W : Type}

/-- The states of a method with `N` steps and the derivatives it remembers: `Φ` makes the first `N-1` steps, then `g` computes the new state from the
last state and the last `N` derivatives. -/
def adamsOrbit (N : ℕ) (f : V → ℝ → V) (Φ : V → ℝ → ℝ → V) (g : V → List V → ℝ → ℝ → V) (t0 dt : ℝ) (x0 : V) : ℕ → V × List V
  | 0 => (x0, [])
  | k + 1 =>
    let z := adamsOrbit N f Φ g t0 dt x0 k
    (if z.2.length + 1 < N then Φ z.1 (t0 + k * dt) dt else g z.1 (f z.1 (t0 + k * dt) :: z.2) (t0 + k * dt) dt,
      (f z.1 (t0 + k * dt) :: z.2).take (N - 1))

section
variable [NormedAddCommGroup V] [NormedSpace ℝ V]

theorem adamsOrbit_past (N : ℕ) (f : V → ℝ → V) (Φ : V → ℝ → ℝ → V) (g : V → List V → ℝ → ℝ → V) (t0 dt : ℝ) (x0 : V) (k : ℕ) :
    (adamsOrbit N f Φ g t0 dt x0 k).2 = pastOf N f (fun i => (adamsOrbit N f Φ g t0 dt x0 i).1) (fun i => t0 + i * dt) k := by
  induction k with
  | zero => simp [adamsOrbit, pastOf]
  | succ k ih =>
    rw [← pastOf_succ, ← ih]
    rfl

theorem AdamsMemory.userSet {N : ℕ} {h : Heap ℝ V W} {past : List V} (hm : AdamsMemory N h past) (x : V) (w : W) :
    AdamsMemory N ((h.set (.user 0) x).withWorld w) past := by
  obtain ⟨h1, h2, h3⟩ := hm
  refine ⟨h1, h2, fun i v hv => ?_⟩
  rw [← h3 i v hv]
  simp [Heap.withWorld, Heap.set, bufData]

/-- A stepper object whose step has an outcome given by `value`, which computes a function. -/
theorem adams_step_object {N : ℕ} {f : V → ℝ → V} {Φ : V → ℝ → ℝ → V} {g : V → List V → ℝ → ℝ → V} {os : List Owner}
    {step : Loc → ℝ → ℝ → StepM ℝ V W Unit} {value : List V → V → ℝ → ℝ → M W (V × List V)}
    (hp : ∀ h past t dt, AdamsMemory N h past →
      AdamsOutcome os N h (.user 0) (step (.user 0) t dt h) (value past (h.state (.user 0)) t dt h.world))
    (hv : ∀ past x t dt w, ∃ w', value past x t dt w =
      .ok (if past.length + 1 < N then Φ x t dt else g x (f x t :: past) t dt, (f x t :: past).take (N - 1)) w')
    (q : Heap ℝ V W) (past : List V) (hq : AdamsMemory N q past) (x : V) (t dt : ℝ) (w : W) (l : Log V ℝ) :
    ∃ q' w', (stepperObject step).doStep q x t dt (w, l) =
        .ok (q', if past.length + 1 < N then Φ x t dt else g x (f x t :: past) t dt) (w', l) ∧
      AdamsMemory N q' ((f x t :: past).take (N - 1)) := by
  have hx : ((q.set (.user 0) x).withWorld w).state (.user 0) = x := by simp [Heap.withWorld, Heap.set]
  have H := hp _ past t dt (hq.userSet x w)
  rw [hx] at H
  obtain ⟨w1, e1⟩ := hv past x t dt ((q.set (.user 0) x).withWorld w).world
  rw [e1] at H
  obtain ⟨h', a1, a2, a3, a4, -⟩ := H
  refine ⟨h', h'.world, ?_, a4⟩
  simp only [stepperObject, a1, a3]

/-- What is needed of the formula of a method with `N` steps: if the states and derivatives are those of the solution up to errors of `E` and `L E`, the
next state is that of the solution up to `( 1 + Λ h ) E + K h^(N+1)`. -/
def FormulaOrder (N : ℕ) (f : V → ℝ → V) (φ : ℝ → V) (g : V → List V → ℝ → ℝ → V) (L : ℝ) : Prop :=
  ∀ a b : ℝ, ∃ Λ K, 0 ≤ Λ ∧ 0 ≤ K ∧ ∀ t ∈ Set.Icc a b, ∀ h : ℝ, |h| ≤ 1 → ∀ (x : V) (ks : List V) (E : ℝ), ks.length = N → 0 ≤ E → ‖x - φ t‖ ≤ E →
    (∀ j < N, ‖ks.getD j 0 - f (φ (t - j * h)) (t - j * h)‖ ≤ L * E) → ‖g x ks t h - φ (t + h)‖ ≤ (1 + Λ * |h|) * E + K * |h| ^ (N + 1)

theorem GoodRhs.mono {f : V → ℝ → V} {m n : ℕ} (hf : GoodRhs f n) (h : m ≤ n) : GoodRhs f m :=
  ⟨hf.smooth.of_le (by exact_mod_cast h), hf.lipschitz⟩

/-- The convergence of a method with `N` steps, started with a method of order `p`. -/
theorem multistep_converges [CompleteSpace V] {N p n r : ℕ} {f : V → ℝ → V} {φ : ℝ → V} {Φ : V → ℝ → ℝ → V} {g : V → List V → ℝ → ℝ → V} {os : List Owner}
    {step : Loc → ℝ → ℝ → StepM ℝ V W Unit} {value : List V → V → ℝ → ℝ → M W (V × List V)} (hN : 1 ≤ N) (hrN : r ≤ N) (hrp : r ≤ p + 1) (hpn : p + 1 ≤ n)
    (hf : GoodRhs f n) (hφ : IsFlowLine f φ) (hΦ : IsRk f Φ) (hord : ∀ t, LocalOrder p (Φ (φ t) t) t φ)
    (hg : ∀ L, 0 ≤ L → FormulaOrder N f φ g L)
    (hp : ∀ h past t dt, AdamsMemory N h past →
      AdamsOutcome os N h (.user 0) (step (.user 0) t dt h) (value past (h.state (.user 0)) t dt h.world))
    (hv : ∀ past x t dt w, ∃ w', value past x t dt w =
      .ok (if past.length + 1 < N then Φ x t dt else g x (f x t :: past) t dt, (f x t :: past).take (N - 1)) w') :
    ConvergesWithOrder r (stepperObject step) (fun q => AdamsMemory N q []) φ := by
  obtain ⟨L0, hL0⟩ := hf.lipschitz
  obtain ⟨L, hL, hlip⟩ : ∃ L, 0 ≤ L ∧ ∀ x y t, ‖f x t - f y t‖ ≤ L * ‖x - y‖ :=
    ⟨max L0 0, le_max_right _ _, fun x y t => (hL0 x y t).trans (mul_le_mul_of_nonneg_right (le_max_left _ _) (norm_nonneg _))⟩
  refine converges_of_follows fun a b T => ?_
  obtain ⟨Λ1, K, hΛ1, hK, hform⟩ := hg L hL a b
  obtain ⟨K', hK', hloc⟩ := local_error_uniform (hf.mono hpn) (hΦ.regular (hf.mono hpn)) hφ hord a b 1
  obtain ⟨Λ2, hΛ2, hΦlip⟩ := (hΦ.regular hf).lipschitz 1
  set Λ := max Λ1 Λ2 with hΛ
  have hΛ0 : 0 ≤ Λ := hΛ1.trans (le_max_left _ _)
  set C := Real.exp (Λ * |T|) * (1 + (K * |T| + N * K')) with hC
  have hC0 : 0 ≤ C := by positivity
  -- the two kinds of steps
  have hwarm : ∀ t ∈ Set.Icc a b, ∀ h : ℝ, |h| ≤ 1 → ∀ (x : V) (E : ℝ), 0 ≤ E → ‖x - φ t‖ ≤ E →
      ‖Φ x t h - φ (t + h)‖ ≤ (1 + Λ * |h|) * E + K' * |h| ^ r := by
    intro t ht h hh x E hE0 hE
    have h1 := hΦlip x (φ t) t h hh
    have h2 := hloc t ht h hh
    have h3 : |h| ^ (p + 1) ≤ |h| ^ r := pow_le_pow_of_le_one (abs_nonneg _) hh hrp
    have h4 : (1 + Λ2 * |h|) * ‖x - φ t‖ ≤ (1 + Λ * |h|) * E := by
      have : Λ2 ≤ Λ := le_max_right _ _
      have := abs_nonneg h
      gcongr
    calc ‖Φ x t h - φ (t + h)‖ ≤ ‖Φ x t h - Φ (φ t) t h‖ + ‖Φ (φ t) t h - φ (t + h)‖ := norm_sub_le_norm_sub_add_norm_sub _ _ _
      _ ≤ (1 + Λ * |h|) * E + K' * |h| ^ r := add_le_add (h1.trans h4) (h2.trans (mul_le_mul_of_nonneg_left h3 hK'))
  have hfull : ∀ t ∈ Set.Icc a b, ∀ h : ℝ, |h| ≤ 1 → ∀ (x : V) (ks : List V) (E : ℝ), ks.length = N → 0 ≤ E → ‖x - φ t‖ ≤ E →
      (∀ j < N, ‖ks.getD j 0 - f (φ (t - j * h)) (t - j * h)‖ ≤ L * E) → ‖g x ks t h - φ (t + h)‖ ≤ (1 + Λ * |h|) * E + K * |h| ^ (r + 1) := by
    intro t ht h hh x ks E hl hE0 hE hks
    refine (hform t ht h hh x ks E hl hE0 hE hks).trans (add_le_add ?_ ?_)
    · have : Λ1 ≤ Λ := le_max_left _ _
      have := abs_nonneg h
      gcongr
    · exact mul_le_mul_of_nonneg_left (pow_le_pow_of_le_one (abs_nonneg _) hh (by omega)) hK
  refine ⟨(1 + Λ) * C + (K + K'), by positivity, fun t0 dt x0 q hq hdt hdt1 => ?_⟩
  set Z := adamsOrbit N f Φ g t0 dt x0 with hZ
  set e0 := ‖x0 - φ t0‖ with he0
  have hD : 0 ≤ e0 + |dt| ^ r := add_nonneg (norm_nonneg _) (pow_nonneg (abs_nonneg _) _)
  have hgrow : ∀ m : ℕ, m * |dt| ≤ T → (∀ k ≤ m, t0 + (k : ℝ) * dt ∈ Set.Icc a b) → ‖(Z m).1 - φ (t0 + m * dt)‖ ≤ C * (e0 + |dt| ^ r) := by
    intro m hm hin
    have key := multistep_growth (N := N) (r := r) (Λ := Λ) (M := K) (M' := K') (T := |T|) hΛ0 hK hK' (abs_nonneg dt)
      (fun i => ‖(Z i).1 - φ (t0 + i * dt)‖) m (norm_nonneg _) ?_ (hm.trans (le_abs_self T))
    · refine key.trans ?_
      have h0 : ‖(Z 0).1 - φ (t0 + ((0 : ℕ) : ℝ) * dt)‖ = e0 := by simp [hZ, adamsOrbit, he0]
      rw [h0, hC, mul_assoc]
      refine mul_le_mul_of_nonneg_left ?_ (Real.exp_pos _).le
      have h1 : 0 ≤ |dt| ^ r := pow_nonneg (abs_nonneg _) _
      have h2 : 0 ≤ K * |T| + N * K' := by positivity
      nlinarith [norm_nonneg (x0 - φ t0), mul_nonneg h2 (norm_nonneg (x0 - φ t0))]
    · intro i hi E hE
      have hE0 : 0 ≤ E := (norm_nonneg _).trans (hE i le_rfl)
      have hti : t0 + (i : ℝ) * dt ∈ Set.Icc a b := hin i hi.le
      have htt : t0 + ((i + 1 : ℕ) : ℝ) * dt = t0 + i * dt + dt := by push_cast; ring
      have hpast := adamsOrbit_past N f Φ g t0 dt x0 i
      have hlen : (Z i).2.length = min i (N - 1) := by rw [hZ, hpast, pastOf_length]
      have hnext : (Z (i + 1)).1 = if (Z i).2.length + 1 < N then Φ (Z i).1 (t0 + i * dt) dt else
          g (Z i).1 (f (Z i).1 (t0 + i * dt) :: (Z i).2) (t0 + i * dt) dt := rfl
      show ‖(Z (i + 1)).1 - φ (t0 + ((i + 1 : ℕ) : ℝ) * dt)‖ ≤ _
      rw [hnext, htt, hlen]
      have hp0 : 0 ≤ K * |dt| ^ (r + 1) := by positivity
      by_cases hlt : i + 1 < N
      · rw [if_pos (by omega), if_pos hlt]
        have := hwarm _ hti dt hdt1 _ E hE0 (hE i le_rfl)
        linarith
      · rw [if_neg (by omega), if_neg hlt, add_zero]
        refine hfull _ hti dt hdt1 _ _ E ?_ hE0 (hE i le_rfl) ?_
        · rw [List.length_cons, hlen]; omega
        · intro j hj
          have hcons := cons_pastOf_full N (by omega) f (fun i => (adamsOrbit N f Φ g t0 dt x0 i).1) (fun i => t0 + (i : ℝ) * dt) i (by omega)
          rw [hZ, hpast, hcons]
          have hji : j ≤ i := by omega
          have e1 : (lastDerivs N f (fun i => (adamsOrbit N f Φ g t0 dt x0 i).1) (fun i => t0 + (i : ℝ) * dt) i).getD j 0 =
              f (Z (i - j)).1 (t0 + ((i - j : ℕ) : ℝ) * dt) := by
            simp [lastDerivs, List.getD, hj, hZ]
          have e2 : t0 + (i : ℝ) * dt - j * dt = t0 + ((i - j : ℕ) : ℝ) * dt := by
            rw [Nat.cast_sub hji]; ring
          rw [e1, e2]
          exact (hlip _ _ _).trans (mul_le_mul_of_nonneg_left (hE (i - j) (by omega)) hL)
  have hCC : C * (e0 + |dt| ^ r) ≤ ((1 + Λ) * C + (K + K')) * (e0 + |dt| ^ r) := by
    refine mul_le_mul_of_nonneg_right ?_ hD
    nlinarith [mul_nonneg hΛ0 hC0]
  refine ⟨fun k => (Z k).1, fun k q => AdamsMemory N q (Z k).2, rfl, hq, ?_, ?_, ?_⟩
  · intro k q w l hk
    obtain ⟨q', w', e, hm⟩ := adams_step_object hp hv q _ hk (Z k).1 (t0 + k * dt) dt w l
    exact ⟨q', w', e, hm⟩
  · intro m hm hin
    exact (hgrow m hm hin).trans hCC
  · intro m h hm hin hh
    refine ⟨if ([] : List V).length + 1 < N then Φ (Z m).1 (t0 + m * dt) h else g (Z m).1 [f (Z m).1 (t0 + m * dt)] (t0 + m * dt) h, ?_, ?_⟩
    · intro w l
      obtain ⟨q', w', e, -⟩ := adams_step_object hp hv q _ hq (Z m).1 (t0 + m * dt) h w l
      exact ⟨q', w', e⟩
    · have hE := hgrow m hm hin
      set E := C * (e0 + |dt| ^ r) with hEdef
      have hE0 : 0 ≤ E := mul_nonneg hC0 hD
      have hh1 : |h| ≤ 1 := hh.trans hdt1
      have h1 : (1 + Λ * |h|) * E ≤ (1 + Λ) * E := by
        refine mul_le_mul_of_nonneg_right ?_ hE0
        nlinarith
      have h2 : |h| ^ r ≤ |dt| ^ r := pow_le_pow_left₀ (abs_nonneg _) hh r
      have h3 : |h| ^ (r + 1) ≤ |dt| ^ r := (pow_le_pow_of_le_one (abs_nonneg _) hh1 (by omega)).trans h2
      have h4 : 0 ≤ |dt| ^ r := pow_nonneg (abs_nonneg _) _
      have h5 : ((1 + Λ) * C + (K + K')) * (e0 + |dt| ^ r) = (1 + Λ) * E + (K + K') * (e0 + |dt| ^ r) := by rw [hEdef]; ring
      have he : 0 ≤ e0 := norm_nonneg _
      rw [h5]
      split
      · refine (hwarm _ (hin m le_rfl) h hh1 _ E hE0 hE).trans ?_
        have : K' * |h| ^ r ≤ (K + K') * (e0 + |dt| ^ r) := by
          have : K' * |h| ^ r ≤ K' * |dt| ^ r := mul_le_mul_of_nonneg_left h2 hK'
          nlinarith [mul_nonneg hK he, mul_nonneg hK' he, mul_nonneg hK h4]
        linarith
      · rename_i hN1
        have hN1 : N = 1 := by simp at hN1; omega
        refine (hfull _ (hin m le_rfl) h hh1 _ _ E (by simp [hN1]) hE0 hE ?_).trans ?_
        · intro j hj
          obtain rfl : j = 0 := by omega
          simp only [Nat.cast_zero, zero_mul, sub_zero, List.getD_cons_zero]
          exact (hlip _ _ _).trans (mul_le_mul_of_nonneg_left hE hL)
        · have : K * |h| ^ (r + 1) ≤ (K + K') * (e0 + |dt| ^ r) := by
            have : K * |h| ^ (r + 1) ≤ K * |dt| ^ r := mul_le_mul_of_nonneg_left h3 hK
            nlinarith [mul_nonneg hK he, mul_nonneg hK' he, mul_nonneg hK' h4]
          linarith

end
end Verif
