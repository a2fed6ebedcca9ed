import Verif.Spec.RunMaps
import Verif.Lemmas.GridRun

/-! # Steppers that compute a function: whole integrations are compositions of steps -/

namespace Verif
variable {V W Q : Type}

/-- the states after `k` steps, from the times `τ k` with the step sizes `h k` -/
def orbitAlong (Φ : V → ℝ → ℝ → V) (τ h : ℕ → ℝ) : ℕ → V → V
  | 0 => id
  | k + 1 => fun x => Φ (orbitAlong Φ τ h k x) (τ k) (h k)

theorem orbitAlong_const (Φ : V → ℝ → ℝ → V) (t0 dt : ℝ) (x : V) (k : ℕ) :
    orbitAlong Φ (fun k => t0 + k * dt) (fun _ => dt) k x = orbit Φ t0 dt x k := by
  induction k with
  | zero => rfl
  | succ k ih => simp only [orbitAlong, orbit, ih]

theorem orbitAlong_congr (Φ : V → ℝ → ℝ → V) {τ τ' h h' : ℕ → ℝ} (x : V) (k : ℕ) (hk : ∀ j < k, τ j = τ' j ∧ h j = h' j) :
    orbitAlong Φ τ h k x = orbitAlong Φ τ' h' k x := by
  induction k with
  | zero => rfl
  | succ k ih => simp only [orbitAlong, ih fun j hj => hk j (by omega), (hk k (by omega)).1, (hk k (by omega)).2]

/-- a property of maps that the identity and all steps have, and that passes to compositions -/
theorem orbitAlong_induction {P : (V → V) → Prop} {Φ : V → ℝ → ℝ → V} (hid : P id) (hcomp : ∀ f g, P f → P g → P (f ∘ g))
    (hΦ : ∀ t h, P fun x => Φ x t h) (τ h : ℕ → ℝ) (k : ℕ) : P (orbitAlong Φ τ h k) := by
  induction k with
  | zero => exact hid
  | succ k ih => exact hcomp _ _ (hΦ (τ k) (h k)) ih

/-- The number of steps, the times and the step sizes of a call do not depend on the stepper and the states. -/
theorem runs_by (c : FixedCall) (eps t0 dt : ℝ) (hdt : dt ≠ 0) : ∃ (n : ℕ) (τ h : ℕ → ℝ), ∀ (V W Q : Type) (st : BasicStepper Q (W × Log V ℝ) V ℝ)
    (R : Q → V → ℝ → Prop) (Φ : V → ℝ → ℝ → V) (fresh : Q → Prop), StepFn st R Φ → (∀ q x t, fresh q → R q x t) →
      RunsBy c st fresh eps t0 dt n τ (orbitAlong Φ τ h) := by
  cases c with
  | nSteps n =>
    refine ⟨n, fun k => t0 + k * dt, fun _ => dt, fun V W Q st R Φ fresh hst hR x0 q w l hq => ?_⟩
    obtain ⟨w', e⟩ := nSteps_run hst eps t0 dt x0 n q w l (hR _ _ _ hq)
    refine ⟨w', ?_⟩
    simp only [FixedCall.run]
    rw [M.bind_ok e, M.pure_apply]
    simp only [orbitAlong_const, orbitObs, seqObs, zero_add]
  | const t1 =>
    obtain ⟨n, hlt, hn⟩ := exists_last_grid eps t0 t1 dt hdt
    refine ⟨n, fun k => t0 + k * dt, fun _ => dt, fun V W Q st R Φ fresh hst hR x0 q w l hq => ?_⟩
    obtain ⟨w', e⟩ := const_run hst eps t0 t1 dt x0 n hlt hn q w l (hR _ _ _ hq)
    refine ⟨w', ?_⟩
    simp only [FixedCall.run]
    rw [M.bind_ok e, M.pure_apply]
    simp only [orbitAlong_const, orbitObs, seqObs, zero_add]
  | adaptive t1 =>
    obtain ⟨n, hlt, hn⟩ := exists_last_grid eps t0 t1 dt hdt
    by_cases hb : Beyond eps dt t1 (t0 + n * dt)
    · refine ⟨n + 1, fun k => if k ≤ n then t0 + k * dt else t1, fun k => if k < n then dt else t1 - (t0 + n * dt),
        fun V W Q st R Φ fresh hst hR x0 q w l hq => ?_⟩
      have low : ∀ k ≤ n, orbitAlong Φ (fun k => if k ≤ n then t0 + k * dt else t1) (fun k => if k < n then dt else t1 - (t0 + n * dt)) k x0 =
          orbit Φ t0 dt x0 k := by
        intro k hk
        rw [← orbitAlong_const]
        refine orbitAlong_congr Φ x0 k fun j hj => ⟨?_, ?_⟩
        · rw [if_pos (by omega)]
        · rw [if_pos (by omega)]
      have top : orbitAlong Φ (fun k => if k ≤ n then t0 + k * dt else t1) (fun k => if k < n then dt else t1 - (t0 + n * dt)) (n + 1) x0 =
          Φ (orbit Φ t0 dt x0 n) (t0 + n * dt) (t1 - (t0 + n * dt)) := by
        simp only [orbitAlong]
        rw [low n le_rfl]
        simp
      obtain ⟨w', ⟨hb', -⟩ | ⟨-, e⟩⟩ := adaptive_run hst eps t0 t1 dt x0 n hlt hn q w l (hR _ _ _ hq) (hR _ _ _ hq)
      · exact absurd hb hb'
      refine ⟨w', ?_⟩
      simp only [FixedCall.run]
      rw [M.bind_ok e, M.pure_apply, top]
      congr 3
      rw [List.range_succ (n := n + 1), List.map_append]
      congr 1
      · simp only [orbitObs, seqObs, zero_add]
        refine List.map_congr_left fun k hk => ?_
        have hk : k ≤ n := by have := List.mem_range.1 hk; omega
        rw [low k hk, if_pos hk]
      · simp only [List.map_cons, List.map_nil, top]
        rw [if_neg (by omega)]
    · refine ⟨n, fun k => t0 + k * dt, fun _ => dt, fun V W Q st R Φ fresh hst hR x0 q w l hq => ?_⟩
      obtain ⟨w', ⟨-, e⟩ | ⟨hb', -⟩⟩ := adaptive_run hst eps t0 t1 dt x0 n hlt hn q w l (hR _ _ _ hq) (hR _ _ _ hq)
      · refine ⟨w', ?_⟩
        simp only [FixedCall.run]
        rw [M.bind_ok e, M.pure_apply]
        simp only [orbitAlong_const, orbitObs, seqObs, zero_add]
      · exact absurd hb' hb

/-! ## There and back -/

theorem orbit_back {Φ : V → ℝ → ℝ → V} (hΦ : ∀ x t h, Φ (Φ x t h) (t + h) (-h) = x) (t0 dt : ℝ) (x0 : V) (n : ℕ) :
    ∀ k ≤ n, orbit Φ (t0 + n * dt) (-dt) (orbit Φ t0 dt x0 n) k = orbit Φ t0 dt x0 (n - k) := by
  intro k
  induction k with
  | zero => intro _; rfl
  | succ k ih =>
    intro hk
    rw [orbit, ih (by omega)]
    obtain ⟨m, rfl⟩ : ∃ m, n = k + 1 + m := ⟨n - (k + 1), by omega⟩
    rw [show k + 1 + m - k = m + 1 by omega, show k + 1 + m - (k + 1) = m by omega, orbit]
    have e : t0 + ((k + 1 + m : ℕ) : ℝ) * dt + (k : ℝ) * -dt = t0 + m * dt + dt := by push_cast; ring
    rw [e, hΦ]

theorem orbitObs_back {Φ : V → ℝ → ℝ → V} (hΦ : ∀ x t h, Φ (Φ x t h) (t + h) (-h) = x) (t0 dt : ℝ) (x0 : V) (n : ℕ) :
    orbitObs Φ (t0 + n * dt) (-dt) (orbit Φ t0 dt x0 n) 0 (n + 1) = (orbitObs Φ t0 dt x0 0 (n + 1)).reverse := by
  simp only [orbitObs, seqObs, zero_add]
  refine List.ext_getElem (by simp) fun k h1 h2 => ?_
  simp only [List.length_map, List.length_range] at h1
  rw [List.getElem_reverse]
  simp only [List.getElem_map, List.getElem_range, List.length_map, List.length_range]
  rw [orbit_back hΦ t0 dt x0 n k (by omega), show n + 1 - 1 - k = n - k by omega]
  congr 1
  rw [Nat.cast_sub (by omega)]
  ring

/-- a stepper whose steps are undone by steps with the opposite step size -/
theorem reverses_of_stepFn {st : BasicStepper Q (W × Log V ℝ) V ℝ} {R : Q → V → ℝ → Prop} {Φ : V → ℝ → ℝ → V} {fresh : Q → Prop} (hst : StepFn st R Φ)
    (hR : ∀ q x t, fresh q → R q x t) (hΦ : ∀ x t h, Φ (Φ x t h) (t + h) (-h) = x) : Reverses st fresh := by
  intro eps t0 dt x0 q q' w l hq hq' A
  have e0 : ∀ n : ℕ, orbit Φ (t0 + n * dt) (-dt) (orbit Φ t0 dt x0 n) n = x0 := fun n => by
    rw [orbit_back hΦ t0 dt x0 n n le_rfl, Nat.sub_self]; rfl
  refine ⟨fun n => ?_, fun heps hlt t1 => ?_⟩
  · obtain ⟨w₁, e⟩ := nSteps_run hst eps t0 dt x0 n q w l (hR _ _ _ hq)
    refine ⟨_, w₁, _, e, fun w₂ l₂ => ?_⟩
    obtain ⟨w₃, e'⟩ := nSteps_run hst eps (t0 + n * dt) (-dt) (orbit Φ t0 dt x0 n) n q' w₂ l₂ (hR _ _ _ hq')
    refine ⟨w₃, ?_⟩
    rw [e', e0, orbitObs_back hΦ, show t0 + (n : ℝ) * dt + n * -dt = t0 by ring]
  · have hdt : dt ≠ 0 := by rintro rfl; simp at hlt; linarith
    obtain ⟨n, h1, h2⟩ := exists_last_grid eps t0 t1 dt hdt
    obtain ⟨w₁, e⟩ := const_run hst eps t0 t1 dt x0 n h1 h2 q w l (hR _ _ _ hq)
    have g1 : ∀ k < n, ¬ Beyond eps (-dt) (t0 + n * dt + (k + 1 : ℕ) * -dt) t0 := by
      intro k hk
      have hk' : ((k + 1 : ℕ) : ℝ) ≤ n := by exact_mod_cast hk
      unfold Beyond
      push_cast at hk' ⊢
      rcases lt_or_gt_of_ne hdt with h | h
      · simp only [h, not_lt_of_gt h, neg_lt_zero, neg_pos, Left.neg_pos_iff, Left.neg_neg_iff, true_and, false_and, or_false, false_or, if_true, if_false, not_lt, ite_true, ite_false]
        nlinarith
      · simp only [h, not_lt_of_gt h, neg_lt_zero, neg_pos, Left.neg_pos_iff, Left.neg_neg_iff, true_and, false_and, or_false, false_or, if_true, if_false, not_lt, ite_true, ite_false]
        nlinarith
    have g2 : Beyond eps (-dt) (t0 + n * dt + (n + 1 : ℕ) * -dt) t0 := by
      unfold Beyond
      push_cast
      rcases lt_or_gt_of_ne hdt with h | h
      · rw [abs_of_neg h] at hlt
        simp only [h, not_lt_of_gt h, Left.neg_pos_iff, Left.neg_neg_iff, true_and, false_and, or_false, false_or, ite_true, ite_false]
        nlinarith
      · rw [abs_of_pos h] at hlt
        simp only [h, not_lt_of_gt h, Left.neg_pos_iff, Left.neg_neg_iff, true_and, false_and, or_false, false_or, ite_true, ite_false]
        nlinarith
    refine ⟨_, n, w₁, _, e, fun w₂ l₂ => ?_⟩
    obtain ⟨w₃, e'⟩ := const_run hst eps (t0 + n * dt) t0 (-dt) (orbit Φ t0 dt x0 n) n g1 g2 q' w₂ l₂ (hR _ _ _ hq')
    refine ⟨w₃, ?_⟩
    rw [e', e0, orbitObs_back hΦ]

end Verif
