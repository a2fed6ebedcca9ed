import Verif.Model.Rounding
import Verif.Spec.Steppers
import Verif.Spec.Convergence
import Mathlib.Analysis.Calculus.MeanValue
import Mathlib.Analysis.Calculus.ContDiff.Basic
import Mathlib.Tactic.Positivity
import Mathlib.Tactic.Linarith
import Mathlib.Tactic.FieldSimp

/-! # Computing with rounding errors: values that differ by `O(u)` -/

namespace Verif
open Finset

variable {W : Type} {d : ℕ}

theorem Rounding.Accurate.mono {ρ : Rounding} {B B' : ℝ} (h : B ≤ B') (H : ρ.Accurate B') (hB : 1 ≤ B) : ρ.Accurate B where
  nonneg := H.nonneg
  small := (mul_le_mul_of_nonneg_left h H.nonneg).trans H.small
  close y hy := H.close y (hy.trans h)

/-- A step of a stepper in a number format: the format, the system function and its exact results, state, derivative, exact and rounded time and the step
size -/
structure RoundedStep (W : Type) (d : ℕ) where
  ρ : Rounding
  sys : Sys (Fl ρ) (Fin d → Fl ρ) W
  g : (Fin d → ℝ) → ℝ → Fin d → ℝ
  x : Fin d → ℝ
  k : Fin d → ℝ
  t' : ℝ
  t : ℝ
  h : ℝ

/-- the system function in a number format -/
def flSys {ρ : Rounding} (g : (Fin d → ℝ) → ℝ → Fin d → ℝ) : (Fin d → Fl ρ) → Fl ρ → Fin d → Fl ρ := g

/-- The number format and the system function are accurate up to sizes `B`, the step starts at distance `O(u)` from an exact one. -/
structure RoundedStep.Good (f : (Fin d → ℝ) → ℝ → Fin d → ℝ) (κ : ℝ → ℝ) (R : ℝ) (e : RoundedStep W d) (B : ℝ) : Prop where
  acc : e.ρ.Accurate B
  evaluates : Evaluates e.sys (flSys e.g)
  sys_close : ∀ r ≤ B, ∀ x t, ‖x‖ ≤ r → |t| ≤ r → ‖e.g x t - f x t‖ ≤ κ r * e.ρ.u
  x_le : ‖e.x‖ ≤ R
  t_le : |e.t| ≤ R
  t_close : |e.t' - e.t| ≤ R * e.ρ.u
  h_le : |e.h| ≤ 1
  k_close : ‖e.k - f e.x e.t‖ ≤ R * e.ρ.u

variable {f : (Fin d → ℝ) → ℝ → Fin d → ℝ} {κ : ℝ → ℝ} {R : ℝ}

theorem RoundedStep.Good.mono {e : RoundedStep W d} {B B' : ℝ} (h : B ≤ B') (hB : 1 ≤ B) (H : e.Good f κ R B') : e.Good f κ R B :=
  { H with
    acc := H.acc.mono h hB
    sys_close := fun r hr => H.sys_close r (hr.trans h) }

variable (f κ R) in
/-- In all steps that are accurate enough `a'` is bounded and differs from `a` by `O(u)`. -/
def Near (a' a : RoundedStep W d → ℝ) : Prop :=
  ∃ B, 1 ≤ B ∧ ∀ e, e.Good f κ R B → |a e| ≤ B ∧ |a' e - a e| ≤ B * e.ρ.u

variable (f κ R) in
/-- the same for states -/
def NearV (v' v : RoundedStep W d → Fin d → ℝ) : Prop :=
  ∃ B, 1 ≤ B ∧ ∀ e, e.Good f κ R B → ‖v e‖ ≤ B ∧ ‖v' e - v e‖ ≤ B * e.ρ.u

theorem Near.intro {a' a : RoundedStep W d → ℝ} (B c1 c2 : ℝ)
    (H : ∀ e : RoundedStep W d, e.Good f κ R (max 1 B) → |a e| ≤ c1 ∧ |a' e - a e| ≤ c2 * e.ρ.u) : Near f κ R a' a := by
  refine ⟨max (max 1 B) (max c1 c2), (le_max_left _ _).trans (le_max_left _ _), fun e he => ?_⟩
  obtain ⟨h1, h2⟩ := H e (he.mono (le_max_left _ _) (le_max_left _ _))
  refine ⟨h1.trans ((le_max_left _ _).trans (le_max_right _ _)), h2.trans ?_⟩
  exact mul_le_mul_of_nonneg_right ((le_max_right _ _).trans (le_max_right _ _)) he.acc.nonneg

theorem NearV.intro {a' a : RoundedStep W d → Fin d → ℝ} (B c1 c2 : ℝ)
    (H : ∀ e : RoundedStep W d, e.Good f κ R (max 1 B) → ‖a e‖ ≤ c1 ∧ ‖a' e - a e‖ ≤ c2 * e.ρ.u) : NearV f κ R a' a := by
  refine ⟨max (max 1 B) (max c1 c2), (le_max_left _ _).trans (le_max_left _ _), fun e he => ?_⟩
  obtain ⟨h1, h2⟩ := H e (he.mono (le_max_left _ _) (le_max_left _ _))
  refine ⟨h1.trans ((le_max_left _ _).trans (le_max_right _ _)), h2.trans ?_⟩
  exact mul_le_mul_of_nonneg_right ((le_max_right _ _).trans (le_max_right _ _)) he.acc.nonneg

theorem RoundedStep.Good.u_le {e : RoundedStep W d} {B : ℝ} (hB : 1 ≤ B) (H : e.Good f κ R B) : e.ρ.u ≤ 1 := by
  have := H.acc.small
  nlinarith [H.acc.nonneg]

variable {a' a b' b : RoundedStep W d → ℝ}

theorem Near.rnd (h : Near f κ R a' a) : Near f κ R (fun e => e.ρ.rnd (a' e)) a := by
  obtain ⟨B, hB, H⟩ := h
  refine Near.intro (2 * B) B (1 + 3 * B) fun e he => ?_
  obtain ⟨h1, h2⟩ := H e (he.mono ((by linarith : B ≤ 2 * B).trans (le_max_right _ _)) hB)
  have hu := he.acc.nonneg
  have hu1 := he.u_le (le_max_left _ _)
  have h3 : |a' e| ≤ 2 * B := by
    have : |a' e| ≤ |a' e - a e| + |a e| := by
      have := abs_add_le (a' e - a e) (a e)
      rwa [sub_add_cancel] at this
    nlinarith
  have h4 := he.acc.close (a' e) (by
    have : e.ρ.u * |a' e| ≤ 1 * (2 * B) := mul_le_mul hu1 h3 (abs_nonneg _) zero_le_one
    rw [one_mul] at this
    exact this.trans (le_max_right _ _))
  refine ⟨h1, ?_⟩
  have h5 : |e.ρ.rnd (a' e) - a e| ≤ |e.ρ.rnd (a' e) - a' e| + |a' e - a e| := abs_sub_le _ _ _
  nlinarith

theorem Near.const (c : ℝ) : Near f κ R (fun _ : RoundedStep W d => c) fun _ => c :=
  Near.intro 1 |c| 0 fun e _ => ⟨le_rfl, by simp⟩

theorem Near.add (ha : Near f κ R a' a) (hb : Near f κ R b' b) : Near f κ R (fun e => a' e + b' e) fun e => a e + b e := by
  obtain ⟨A, hA, HA⟩ := ha
  obtain ⟨B, hB, HB⟩ := hb
  refine Near.intro (A + B) (A + B) (A + B) fun e he => ?_
  obtain ⟨h1, h2⟩ := HA e (he.mono ((by linarith : A ≤ A + B).trans (le_max_right _ _)) hA)
  obtain ⟨h3, h4⟩ := HB e (he.mono ((by linarith : B ≤ A + B).trans (le_max_right _ _)) hB)
  refine ⟨(abs_add_le _ _).trans (add_le_add h1 h3), ?_⟩
  rw [show a' e + b' e - (a e + b e) = (a' e - a e) + (b' e - b e) by ring, add_mul]
  exact (abs_add_le _ _).trans (add_le_add h2 h4)

theorem Near.neg (ha : Near f κ R a' a) : Near f κ R (fun e => -a' e) fun e => -a e := by
  obtain ⟨A, hA, HA⟩ := ha
  refine ⟨A, hA, fun e he => ?_⟩
  obtain ⟨h1, h2⟩ := HA e he
  exact ⟨by rwa [abs_neg], by rwa [show -a' e - -a e = -(a' e - a e) by ring, abs_neg]⟩

theorem Near.sub (ha : Near f κ R a' a) (hb : Near f κ R b' b) : Near f κ R (fun e => a' e - b' e) fun e => a e - b e := by
  simpa only [sub_eq_add_neg] using ha.add hb.neg

theorem Near.mul (ha : Near f κ R a' a) (hb : Near f κ R b' b) : Near f κ R (fun e => a' e * b' e) fun e => a e * b e := by
  obtain ⟨A, hA, HA⟩ := ha
  obtain ⟨B, hB, HB⟩ := hb
  refine Near.intro (A + B) (A * B) (3 * A * B) fun e he => ?_
  obtain ⟨h1, h2⟩ := HA e (he.mono ((by linarith : A ≤ A + B).trans (le_max_right _ _)) hA)
  obtain ⟨h3, h4⟩ := HB e (he.mono ((by linarith : B ≤ A + B).trans (le_max_right _ _)) hB)
  have hu := he.acc.nonneg
  have hu1 := he.u_le (le_max_left _ _)
  have hb' : |b' e| ≤ 2 * B := by
    have : |b' e| ≤ |b' e - b e| + |b e| := by
      have := abs_add_le (b' e - b e) (b e)
      rwa [sub_add_cancel] at this
    nlinarith
  refine ⟨by rw [abs_mul]; exact mul_le_mul h1 h3 (abs_nonneg _) (by linarith), ?_⟩
  rw [show a' e * b' e - a e * b e = (a' e - a e) * b' e + a e * (b' e - b e) by ring]
  refine (abs_add_le _ _).trans ?_
  rw [abs_mul, abs_mul]
  have e1 : |a' e - a e| * |b' e| ≤ A * e.ρ.u * (2 * B) := mul_le_mul h2 hb' (abs_nonneg _) (by positivity)
  have e2 : |a e| * |b' e - b e| ≤ A * (B * e.ρ.u) := mul_le_mul h1 h4 (abs_nonneg _) (by positivity)
  nlinarith

/-- division by a number other than `0` -/
theorem Near.div_const (ha : Near f κ R a' a) {c : ℝ} (hc : c ≠ 0) (hb : Near f κ R b' fun _ => c) :
    Near f κ R (fun e => a' e / b' e) fun e => a e / c := by
  suffices h : Near f κ R (fun e => 1 / b' e) fun _ => 1 / c by
    have := ha.mul h
    simpa only [mul_one_div] using this
  obtain ⟨B, hB, HB⟩ := hb
  have hc0 : 0 < |c| := abs_pos.2 hc
  refine Near.intro (max B (2 * B / |c|)) |1 / c| (2 * B / |c| ^ 2) fun e he => ⟨le_rfl, ?_⟩
  obtain ⟨-, h2⟩ := HB e (he.mono ((le_max_left _ _).trans (le_max_right _ _)) hB)
  have hu := he.acc.nonneg
  have h3 : e.ρ.u * (2 * B / |c|) ≤ 1 := (mul_le_mul_of_nonneg_left ((le_max_right _ _).trans (le_max_right _ _)) hu).trans he.acc.small
  have h4 : B * e.ρ.u ≤ |c| / 2 := by
    rw [mul_div_assoc', div_le_one hc0] at h3
    linarith
  have h5 : |c| / 2 ≤ |b' e| := by
    have : |c| ≤ |b' e| + |b' e - c| := by
      have := abs_sub_abs_le_abs_sub c (b' e)
      rw [abs_sub_comm] at this
      linarith
    linarith
  have hb0 : b' e ≠ 0 := by
    intro h
    rw [h, abs_zero] at h5
    linarith
  rw [show 1 / b' e - 1 / c = (c - b' e) / (b' e * c) by field_simp, abs_div, abs_mul, abs_sub_comm, div_le_iff₀ (by positivity)]
  refine h2.trans ?_
  have h6 : 2 * B / |c| ^ 2 * e.ρ.u * (|c| / 2 * |c|) = B * e.ρ.u := by field_simp
  rw [← h6]
  refine mul_le_mul_of_nonneg_left (mul_le_mul_of_nonneg_right h5 (abs_nonneg _)) ?_
  have : 0 ≤ B := by linarith
  positivity

/-! ## Numbers of the format -/

theorem Near.fl_add {a' b' : (e : RoundedStep W d) → Fl e.ρ} (ha : Near f κ R a' a) (hb : Near f κ R b' b) :
    Near f κ R (fun e => (a' e + b' e : Fl e.ρ)) fun e => a e + b e := (ha.add hb).rnd

theorem Near.fl_sub {a' b' : (e : RoundedStep W d) → Fl e.ρ} (ha : Near f κ R a' a) (hb : Near f κ R b' b) :
    Near f κ R (fun e => (a' e - b' e : Fl e.ρ)) fun e => a e - b e := (ha.sub hb).rnd

theorem Near.fl_mul {a' b' : (e : RoundedStep W d) → Fl e.ρ} (ha : Near f κ R a' a) (hb : Near f κ R b' b) :
    Near f κ R (fun e => (a' e * b' e : Fl e.ρ)) fun e => a e * b e := (ha.mul hb).rnd

theorem Near.fl_lit (n : ℤ) : Near f κ R (fun e : RoundedStep W d => (lit n : Fl e.ρ)) fun _ => (lit n : ℝ) := (Near.const (n : ℝ)).rnd

theorem Near.fl_div {a' : (e : RoundedStep W d) → Fl e.ρ} (ha : Near f κ R a' a) {n : ℤ} (hn : n ≠ 0) :
    Near f κ R (fun e => (a' e / lit n : Fl e.ρ)) fun e => a e / (lit n : ℝ) :=
  (ha.div_const (c := lit n) (by simpa [lit] using hn) (Near.fl_lit n)).rnd

theorem Near.fl_frac (p : ℤ) {q : ℤ} (hq : q ≠ 0) :
    Near f κ R (fun e : RoundedStep W d => (frac p q : Fl e.ρ)) fun _ => (frac p q : ℝ) := (Near.fl_lit p).fl_div hq

/-! ## States -/

theorem NearV.apply {v' v : RoundedStep W d → Fin d → ℝ} (h : NearV f κ R v' v) (i : Fin d) : Near f κ R (fun e => v' e i) fun e => v e i := by
  obtain ⟨B, hB, H⟩ := h
  refine ⟨B, hB, fun e he => ?_⟩
  obtain ⟨h1, h2⟩ := H e he
  exact ⟨(norm_le_pi_norm (v e) i).trans h1, (norm_le_pi_norm (v' e - v e) i).trans h2⟩

theorem NearV.of_apply {v' v : RoundedStep W d → Fin d → ℝ} (h : ∀ i, Near f κ R (fun e => v' e i) fun e => v e i) : NearV f κ R v' v := by
  choose B hB H using h
  have hle : ∀ i, B i ≤ ∑ i, B i := fun i => single_le_sum (f := B) (fun i _ => zero_le_one.trans (hB i)) (mem_univ i)
  refine NearV.intro (∑ i, B i) (∑ i, B i) (∑ i, B i) fun e he => ?_
  have h0 : 0 ≤ ∑ i, B i := sum_nonneg fun i _ => zero_le_one.trans (hB i)
  have hu := he.acc.nonneg
  have hi := fun i => H i e (he.mono ((hle i).trans (le_max_right _ _)) (hB i))
  refine ⟨(pi_norm_le_iff_of_nonneg h0).2 fun i => (hi i).1.trans (hle i), (pi_norm_le_iff_of_nonneg (by positivity)).2 fun i => ?_⟩
  exact (hi i).2.trans (mul_le_mul_of_nonneg_right (hle i) hu)

/-- a right hand side is Lipschitz continuous on bounded sets -/
theorem lipschitz_on_bounded (hf : ContDiff ℝ 1 fun z : (Fin d → ℝ) × ℝ => f z.1 z.2) (B : ℝ) :
    ∃ L, 0 ≤ L ∧ ∀ x y t s, ‖x‖ ≤ B → ‖y‖ ≤ B → |t| ≤ B → |s| ≤ B → ‖f x t‖ ≤ L ∧ ‖f x t - f y s‖ ≤ L * max ‖x - y‖ |t - s| := by
  have hc : IsCompact (Metric.closedBall (0 : (Fin d → ℝ) × ℝ) B) := isCompact_closedBall _ _
  obtain ⟨L1, h1⟩ := hc.exists_bound_of_continuousOn (hf.continuous_fderiv (by norm_num)).continuousOn
  obtain ⟨L2, h2⟩ := hc.exists_bound_of_continuousOn hf.continuous.continuousOn
  refine ⟨max 0 (max L1 L2), le_max_left _ _, fun x y t s hx hy ht hs => ?_⟩
  have mem : ∀ (x : Fin d → ℝ) (t : ℝ), ‖x‖ ≤ B → |t| ≤ B → (x, t) ∈ Metric.closedBall (0 : (Fin d → ℝ) × ℝ) B := by
    intro x t hx ht
    rw [mem_closedBall_zero_iff, Prod.norm_mk]
    exact max_le hx ht
  refine ⟨(h2 (x, t) (mem x t hx ht)).trans ((le_max_right _ _).trans (le_max_right _ _)), ?_⟩
  have := (convex_closedBall (0 : (Fin d → ℝ) × ℝ) B).norm_image_sub_le_of_norm_fderiv_le (𝕜 := ℝ) (C := L1)
    (f := fun z : (Fin d → ℝ) × ℝ => f z.1 z.2) (fun z _ => (hf.differentiable (by norm_num)) z) (fun z hz => h1 z hz) (mem y s hy hs) (mem x t hx ht)
  refine this.trans ?_
  rw [Prod.mk_sub_mk, Prod.norm_mk]
  exact mul_le_mul_of_nonneg_right ((le_max_left _ _).trans (le_max_right _ _)) (le_max_of_le_left (norm_nonneg _))

/-- calls of the system function -/
theorem NearV.sys (hf : ContDiff ℝ 1 fun z : (Fin d → ℝ) × ℝ => f z.1 z.2) {v' v : RoundedStep W d → Fin d → ℝ} (hv : NearV f κ R v' v)
    (ha : Near f κ R a' a) : NearV f κ R (fun e => e.g (v' e) (a' e)) fun e => f (v e) (a e) := by
  obtain ⟨A, hA, HA⟩ := ha
  obtain ⟨B, hB, HB⟩ := hv
  obtain ⟨L, hL, hLip⟩ := lipschitz_on_bounded hf (2 * (A + B))
  refine NearV.intro (2 * (A + B)) L (κ (2 * (A + B)) + L * (A + B)) fun e he => ?_
  have hm := le_max_right 1 (2 * (A + B))
  obtain ⟨h1, h2⟩ := HA e (he.mono ((by linarith : A ≤ 2 * (A + B)).trans (le_max_right _ _)) hA)
  obtain ⟨h3, h4⟩ := HB e (he.mono ((by linarith : B ≤ 2 * (A + B)).trans (le_max_right _ _)) hB)
  have hu := he.acc.nonneg
  have hu1 := he.u_le (le_max_left _ _)
  have hv' : ‖v' e‖ ≤ 2 * (A + B) := by
    have : ‖v' e‖ ≤ ‖v' e - v e‖ + ‖v e‖ := by
      have := norm_add_le (v' e - v e) (v e)
      rwa [sub_add_cancel] at this
    nlinarith
  have ha' : |a' e| ≤ 2 * (A + B) := by
    have : |a' e| ≤ |a' e - a e| + |a e| := by
      have := abs_add_le (a' e - a e) (a e)
      rwa [sub_add_cancel] at this
    nlinarith
  have hl1 := hLip (v e) (v e) (a e) (a e) (by linarith) (by linarith) (by linarith) (by linarith)
  have hl2 := hLip (v' e) (v e) (a' e) (a e) hv' (by linarith) ha' (by linarith)
  refine ⟨hl1.1, ?_⟩
  have h5 := he.sys_close _ hm (v' e) (a' e) hv' ha'
  have h6 : max ‖v' e - v e‖ |a' e - a e| ≤ (A + B) * e.ρ.u := max_le (by nlinarith) (by nlinarith)
  have h7 : ‖e.g (v' e) (a' e) - f (v e) (a e)‖ ≤ ‖e.g (v' e) (a' e) - f (v' e) (a' e)‖ + ‖f (v' e) (a' e) - f (v e) (a e)‖ := norm_sub_le_norm_sub_add_norm_sub _ _ _
  have h8 := mul_le_mul_of_nonneg_left h6 hL
  nlinarith [hl2.2]

/-! ## Linear combinations -/

variable (f κ R) in
/-- Lists of pairs of coefficients and states that differ by `O(u)`. -/
inductive NearL : ((e : RoundedStep W d) → List (Fl e.ρ × (Fin d → Fl e.ρ))) → (RoundedStep W d → List (ℝ × (Fin d → ℝ))) → Prop
  | nil : NearL (fun _ => []) fun _ => []
  | cons {a' : (e : RoundedStep W d) → Fl e.ρ} {a : RoundedStep W d → ℝ} {v' : (e : RoundedStep W d) → Fin d → Fl e.ρ}
      {v : RoundedStep W d → Fin d → ℝ} {l' : (e : RoundedStep W d) → List (Fl e.ρ × (Fin d → Fl e.ρ))} {l : RoundedStep W d → List (ℝ × (Fin d → ℝ))}
      (ha : Near f κ R a' a) (hv : NearV f κ R v' v) (hl : NearL l' l) : NearL (fun e => (a' e, v' e) :: l' e) fun e => (a e, v e) :: l e

theorem NearL.foldl {l' : (e : RoundedStep W d) → List (Fl e.ρ × (Fin d → Fl e.ρ))} {l : RoundedStep W d → List (ℝ × (Fin d → ℝ))}
    (hl : NearL f κ R l' l) (i : Fin d) : ∀ {c' : (e : RoundedStep W d) → Fl e.ρ} {c : RoundedStep W d → ℝ}, Near f κ R c' c →
      Near f κ R (fun e => ((l' e).foldl (fun (acc : Fl e.ρ) q => acc + q.1 * q.2 i) (c' e) : Fl e.ρ)) fun e => c e + ((l e).map fun p => p.1 • p.2).sum i := by
  induction hl with
  | nil =>
    intro c' c hc
    have : Near f κ R c' fun e => c e + 0 := by simpa using hc
    exact this
  | cons ha hv _ ih =>
    intro c' c hc
    have := ih (Near.fl_add hc (Near.fl_mul ha (hv.apply i)))
    simp only [List.map_cons, List.sum_cons, Pi.add_apply, Pi.smul_apply, smul_eq_mul, ← add_assoc]
    exact this

theorem NearL.lin {l' : (e : RoundedStep W d) → List (Fl e.ρ × (Fin d → Fl e.ρ))} {l : RoundedStep W d → List (ℝ × (Fin d → ℝ))}
    (hl : NearL f κ R l' l) : NearV f κ R (fun e => (StateOps.lin (l' e) : Fin d → Fl e.ρ)) fun e => StateOps.lin (l e) := by
  refine NearV.of_apply fun i => ?_
  cases hl with
  | nil =>
    have : Near f κ R (fun e : RoundedStep W d => e.ρ.rnd ((0 : ℤ) : ℝ)) fun _ => 0 := by simpa using (Near.const (0 : ℝ)).rnd
    exact this
  | cons ha hv hl =>
    have := hl.foldl i (Near.fl_mul ha (hv.apply i))
    simp only [StateOps.lin, List.map_cons, List.sum_cons, Pi.add_apply, Pi.smul_apply, smul_eq_mul]
    exact this

end Verif
