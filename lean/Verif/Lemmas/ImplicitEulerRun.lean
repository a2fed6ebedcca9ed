import Verif.Spec.ImplicitEulerRun
import Verif.Props.Convergence
import Mathlib.Analysis.Calculus.MeanValue

/-! # Lemmas for C81 -/

namespace Verif
open Finset Filter Topology

section
variable {V W Q : Type} [NormedAddCommGroup V] [NormedSpace ℝ V]

/-- `Follows`, for the first `N` steps. -/
def FollowsTo (N : ℕ) (st : BasicStepper Q (W × Log V ℝ) V ℝ) (t0 dt : ℝ) (X : ℕ → V) : Prop :=
  ∀ k < N, ∀ q w l, ∃ q' w', st.doStep q (X k) (t0 + k * dt) dt (w, l) = .ok (q', X (k + 1)) (w', l)

/-- The stepper that makes the steps of `st` up to the time of step `N`, and later stands still. -/
theorem FollowsTo.nLoop {N : ℕ} {st : BasicStepper Q (W × Log V ℝ) V ℝ} {X : ℕ → V} {t0 dt : ℝ} (hst : FollowsTo N st t0 dt X) (eps : ℝ) :
    ∀ (k s : ℕ) (q : Q) (w : W) (l : Log V ℝ), s + k ≤ N →
    ∃ q' w', nStepsBasicLoop (TimeArith.exact ℝ eps) st recordObserver t0 dt k s ⟨q, X s, t0 + s * dt⟩ (w, l) =
      .ok ⟨q', X (s + k), t0 + ((s + k : ℕ) : ℝ) * dt⟩ (w', l ++ seqObs X t0 dt s k) := by
  intro k
  induction k with
  | zero =>
    intro s q w l _
    exact ⟨q, w, by simp [nStepsBasicLoop, seqObs, M.pure_apply]⟩
  | succ k ih =>
    intro s q w l hR
    obtain ⟨q1, w1, e1⟩ := hst s (by omega) q w (l ++ [.obs (X s) (t0 + s * dt)])
    obtain ⟨q2, w2, e2⟩ := ih (s + 1) q1 w1 (l ++ [.obs (X s) (t0 + s * dt)]) (by omega)
    refine ⟨q2, w2, ?_⟩
    rw [nStepsBasicLoop, M.bind_ok (recordObserver_ok _ _ _ _), M.bind_ok e1]
    rw [show s + (k + 1) = s + 1 + k by omega, seqObs_succ]
    exact e2.trans (by rw [List.append_assoc]; rfl)

theorem FollowsTo.nSteps {N : ℕ} {st : BasicStepper Q (W × Log V ℝ) V ℝ} {X : ℕ → V} {t0 dt : ℝ} (hst : FollowsTo N st t0 dt X) (eps : ℝ)
    (q : Q) (w : W) (l : Log V ℝ) :
    ∃ w', integrateNStepsBasic (TimeArith.exact ℝ eps) st recordObserver q (X 0) t0 dt N (w, l) =
      .ok (X N, t0 + (N : ℝ) * dt) (w', l ++ seqObs X t0 dt 0 (N + 1)) := by
  obtain ⟨q', w', h⟩ := hst.nLoop eps N 0 q w l (by omega)
  simp only [Nat.cast_zero, zero_mul, add_zero, zero_add] at h
  refine ⟨w', ?_⟩
  rw [integrateNStepsBasic, M.bind_ok h, M.bind_ok (recordObserver_ok _ _ _ _), seqObs_last, ← List.append_assoc]
  simp only [zero_add]
  rfl

theorem FollowsTo.cLoop {n : ℕ} {st : BasicStepper Q (W × Log V ℝ) V ℝ} {X : ℕ → V} {t0 dt : ℝ} (hst : FollowsTo n st t0 dt X) (eps t1 : ℝ)
    (hlt : ∀ k : ℕ, k < n → ¬ Beyond eps dt (t0 + (k + 1 : ℕ) * dt) t1) (hn : Beyond eps dt (t0 + (n + 1 : ℕ) * dt) t1) :
    ∀ (k s : ℕ), s + k = n → ∀ (q : Q) (w : W) (l : Log V ℝ),
    ∃ q' w', whileM (fun s : ConstState Q V ℝ => (TimeArith.exact ℝ eps).lessEqWithSign ((TimeArith.exact ℝ eps).add s.time dt) t1 dt)
      (fun s => do
        recordObserver s.x s.time
        let (q, x) ← st.doStep s.q s.x s.time dt
        return ⟨q, x, (TimeArith.exact ℝ eps).add t0 ((TimeArith.exact ℝ eps).nmul (s.step + 1) dt), s.step + 1⟩)
      ⟨q, X s, t0 + s * dt, s⟩ (w, l) =
      .ok ⟨q', X n, t0 + (n : ℝ) * dt, n⟩ (w', l ++ seqObs X t0 dt s k) := by
  have hc : ∀ s : ℕ, (TimeArith.exact ℝ eps).lessEqWithSign ((TimeArith.exact ℝ eps).add (t0 + s * dt) dt) t1 dt = true ↔
      ¬ Beyond eps dt (t0 + (s + 1 : ℕ) * dt) t1 := by
    intro s
    rw [← exact_const_cond, exact_grid]
  intro k
  induction k with
  | zero =>
    rintro s rfl q w l
    refine ⟨q, w, ?_⟩
    rw [whileM_stop]
    · simp [seqObs]
    · rw [← Bool.not_eq_true, hc]
      exact not_not.2 hn
  | succ k ih =>
    intro s hs q w l
    obtain ⟨q1, w1, e1⟩ := hst s (by omega) q w (l ++ [.obs (X s) (t0 + s * dt)])
    obtain ⟨q2, w2, e2⟩ := ih (s + 1) (by omega) q1 w1 (l ++ [.obs (X s) (t0 + s * dt)])
    refine ⟨q2, w2, ?_⟩
    rw [seqObs_succ, List.append_cons, ← e2]
    refine whileM_step_ok ((hc s).2 (hlt s (by omega))) ?_
    rw [M.bind_ok (recordObserver_ok _ _ _ _), M.bind_ok e1]
    rfl

theorem FollowsTo.const {n : ℕ} {st : BasicStepper Q (W × Log V ℝ) V ℝ} {X : ℕ → V} {t0 dt : ℝ} (hst : FollowsTo n st t0 dt X) (eps t1 : ℝ)
    (hlt : ∀ k : ℕ, k < n → ¬ Beyond eps dt (t0 + (k + 1 : ℕ) * dt) t1) (hn : Beyond eps dt (t0 + (n + 1 : ℕ) * dt) t1)
    (q : Q) (w : W) (l : Log V ℝ) :
    ∃ w', integrateConstBasic (TimeArith.exact ℝ eps) st recordObserver q (X 0) t0 t1 dt (w, l) =
      .ok (X n, n) (w', l ++ seqObs X t0 dt 0 (n + 1)) := by
  obtain ⟨q', w', h⟩ := hst.cLoop eps t1 hlt hn n 0 (by omega) q w l
  simp only [Nat.cast_zero, zero_mul, add_zero] at h
  refine ⟨w', ?_⟩
  rw [integrateConstBasic, M.bind_ok h, M.bind_ok (recordObserver_ok _ _ _ _), seqObs_last, ← List.append_assoc]
  simp only [zero_add]
  rfl

/-- Convergence of steppers that follow sequences with a global error of order `p`, up to a constant. -/
theorem converges_on_of_follows {p : ℕ} {φ : ℝ → V} {st : BasicStepper Q (W × Log V ℝ) V ℝ} {a b rest : ℝ}
    (H : ∀ R : ℝ, ∃ C h₀, 0 ≤ C ∧ 0 < h₀ ∧ ∀ (t0 dt : ℝ) (x0 : V) (N : ℕ), dt ≠ 0 → |dt| ≤ h₀ → ‖x0 - φ t0‖ ≤ R → N * |dt| ≤ b - a + 1 →
      (∀ k ≤ N, t0 + (k : ℝ) * dt ∈ Set.Icc (a - 1) (b + 1)) → ∃ X : ℕ → V, X 0 = x0 ∧ FollowsTo N st t0 dt X ∧
      (∀ n ≤ N, ‖X n - φ (t0 + n * dt)‖ ≤ C * (‖x0 - φ t0‖ + |dt| ^ p) + rest) ∧
      ∀ h : ℝ, h ≠ 0 → |h| ≤ |dt| →
        ∃ y, (∀ q w l, ∃ q' w', st.doStep q (X N) (t0 + N * dt) h (w, l) = .ok (q', y) (w', l)) ∧
          ‖y - φ (t0 + N * dt + h)‖ ≤ C * (‖x0 - φ t0‖ + |dt| ^ p) + rest) : ConvergesOn a b p rest st φ := by
  intro R
  obtain ⟨C, h₀, hC, hh₀, hglob⟩ := H R
  refine ⟨C, h₀, hh₀, ?_⟩
  intro eps t0 t1 dt x0 q w l he0 he1 ht0 ht1 hdt hdt1 hx0 A bound grid
  have hmid : ∀ n : ℕ, t0 + n * dt ∈ Set.Icc (a - 1) (b + 1) → ∀ k ≤ n, t0 + (k : ℝ) * dt ∈ Set.Icc (a - 1) (b + 1) := by
    intro n h2 k hk
    have hk' : (k : ℝ) ≤ n := by exact_mod_cast hk
    have hk0 : (0 : ℝ) ≤ k := Nat.cast_nonneg k
    obtain ⟨h3, h4⟩ := h2
    obtain ⟨h5, h6⟩ := ht0
    rcases le_total 0 dt with h | h
    · exact ⟨by nlinarith, by nlinarith⟩
    · exact ⟨by nlinarith, by nlinarith⟩
  have hclose : ∀ (n : ℕ) (X : ℕ → V), (∀ k ≤ n, ‖X k - φ (t0 + k * dt)‖ ≤ bound) → CloseTo φ bound (seqObs X t0 dt 0 (n + 1)) := by
    intro n X h o ho
    rw [seqObs_observations] at ho
    obtain ⟨i, hi, rfl⟩ := List.mem_map.1 ho
    exact h i (by have := List.mem_range.1 hi; omega)
  have htimes : ∀ (n : ℕ) (X : ℕ → V), (Log.observations (seqObs X t0 dt 0 (n + 1))).map Prod.snd = grid n := by
    intro n X
    rw [seqObs_observations, List.map_map]
    rfl
  have hlast : ∀ (n : ℕ) (X : ℕ → V), (X n, t0 + n * dt) ∈ Log.observations (seqObs X t0 dt 0 (n + 1)) := by
    intro n X
    rw [seqObs_observations]
    exact List.mem_map.2 ⟨n, List.mem_range.2 (by omega), rfl⟩
  obtain ⟨n, hlt, hn⟩ := exists_last_grid eps t0 t1 dt hdt
  have hreach : n * |dt| ≤ b - a + 1 ∧ t0 + n * dt ∈ Set.Icc (a - 1) (b + 1) := by
    obtain ⟨a1, a2⟩ := ht0
    obtain ⟨b1, b2⟩ := ht1
    rcases Nat.eq_zero_or_pos n with rfl | hpos
    · simp only [Nat.cast_zero, zero_mul, add_zero, Set.mem_Icc]
      exact ⟨by linarith, by linarith, by linarith⟩
    · have h := hlt (n - 1) (by omega)
      rw [Nat.sub_add_cancel hpos] at h
      have hn0 : (0 : ℝ) ≤ n := Nat.cast_nonneg n
      unfold Beyond at h
      split at h
      · rename_i hp
        rw [abs_of_pos hp]
        exact ⟨by linarith, by nlinarith, by linarith⟩
      · rename_i hp
        rw [abs_of_nonpos (not_lt.1 hp)]
        exact ⟨by linarith, by linarith, by nlinarith⟩
  refine ⟨?_, ?_⟩
  · rintro m hm
    have h1 : m * |dt| ≤ b - a + 1 := by
      have : (m : ℝ) * |dt| = |t1 - t0| := by rw [hm, add_sub_cancel_left, abs_mul, Nat.abs_cast]
      rw [this, abs_le]
      obtain ⟨a1, a2⟩ := ht0
      obtain ⟨b1, b2⟩ := ht1
      constructor <;> linarith
    have h2 : t0 + m * dt ∈ Set.Icc (a - 1) (b + 1) := by
      rw [← hm]
      exact ⟨by linarith [ht1.1], by linarith [ht1.2]⟩
    obtain ⟨X, hX0, hst, hgrid, -⟩ := hglob t0 dt x0 m hdt hdt1 hx0 h1 (hmid m h2)
    obtain ⟨w', e⟩ := hst.nSteps eps q w l
    rw [hX0] at e
    rw [hm]
    exact ⟨_, w', _, e, htimes m X, hclose m X hgrid, hgrid m le_rfl⟩
  · obtain ⟨X, hX0, hst, hgrid, hstep'⟩ := hglob t0 dt x0 n hdt hdt1 hx0 hreach.1 (hmid n hreach.2)
    obtain ⟨w1, e1⟩ := hst.const eps t1 hlt hn q w l
    rw [hX0] at e1
    refine ⟨⟨_, n, w1, _, e1, htimes n X, hclose n X hgrid, hgrid n le_rfl⟩, ?_⟩
    intro hfwd
    by_cases hb : Beyond eps dt t1 (t0 + n * dt)
    · have hd : |t1 - (t0 + n * dt)| ≤ |dt| := by
        unfold Beyond at hb hn
        push_cast at hn
        split at hb
        · rename_i hp
          rw [if_pos hp] at hn
          rw [abs_of_pos hp, abs_le]
          constructor <;> linarith
        · rename_i hp
          rw [if_neg hp] at hn
          rw [abs_of_nonpos (not_lt.1 hp), abs_le]
          constructor <;> linarith
      have hne : t1 - (t0 + n * dt) ≠ 0 := by
        intro h0
        unfold Beyond at hb
        split at hb <;> linarith
      obtain ⟨y, hy, hstep⟩ := hstep' _ hne hd
      rw [add_sub_cancel] at hstep
      obtain ⟨q2, w2, e2⟩ := hy q w1 (l ++ seqObs X t0 dt 0 (n + 1))
      refine ⟨y, n + 1, w2, seqObs X t0 dt 0 (n + 1) ++ [.obs y t1], ?_, ?_, t1, by simpa using he0, ?_, hstep⟩
      · rw [integrateAdaptiveBasic, M.bind_ok e1]
        dsimp only
        rw [if_pos]
        · exact (M.bind_ok e2 _).trans ((M.bind_ok (recordObserver_ok _ _ _ _) _).trans (by rw [List.append_assoc]; rfl))
        · exact (exact_less _ _ _ _).mpr ((beyond_iff _ _ _ _).mp hb)
      · intro o ho
        simp only [Log.observations, List.filterMap_append, List.mem_append] at ho
        rcases ho with ho | ho
        · exact hclose n X hgrid o ho
        · simp only [List.filterMap_cons, List.filterMap_nil, List.mem_singleton] at ho
          rw [ho]
          exact hstep
      · simp [Log.observations]
    · refine ⟨_, n, w1, _, ?_, hclose n X hgrid, t0 + n * dt, ?_, hlast n X, hgrid n le_rfl⟩
      · rw [integrateAdaptiveBasic, M.bind_ok e1]
        dsimp only
        rw [if_neg]
        · rfl
        · rw [Bool.not_eq_true]
          exact (exact_less_false _ _ _ _).mpr ((not_beyond_iff _ _ _ _).mp hb)
      have hnb : ¬ Beyond eps dt (t0 + n * dt) t1 := by
        rcases Nat.eq_zero_or_pos n with rfl | hpos
        · simpa using hfwd
        · have := hlt (n - 1) (by omega)
          rwa [Nat.sub_add_cancel hpos] at this
      have h1 := (not_beyond_iff _ _ _ _).mp hb
      have h2 := (not_beyond_iff _ _ _ _).mp hnb
      rw [← abs_dirSign_mul dt, abs_le]
      constructor <;> linarith

/-- Errors that accumulate. -/
theorem accumulate {e : ℕ → ℝ} {Λ C h : ℝ} (hΛ : 0 ≤ Λ) (hC : 0 ≤ C) (hh : 0 ≤ h) {N : ℕ} (he : ∀ k < N, e (k + 1) ≤ (1 + Λ * h) * e k + C * h ^ 2)
    (h0 : 0 ≤ e 0) : ∀ k ≤ N, e k ≤ Real.exp (Λ * (k * h)) * (e 0 + k * h * (C * h)) := by
  intro k
  induction k with
  | zero => intro _; simp
  | succ k ih =>
    intro hk
    have h1 := he k (by omega)
    have h2 := ih (by omega)
    have h3 : 1 + Λ * h ≤ Real.exp (Λ * h) := by linarith [Real.add_one_le_exp (Λ * h)]
    have h4 : Real.exp (Λ * (((k + 1 : ℕ) : ℝ) * h)) = Real.exp (Λ * h) * Real.exp (Λ * (k * h)) := by
      rw [← Real.exp_add]; congr 1; push_cast; ring
    have h5 : 1 ≤ Real.exp (Λ * (((k + 1 : ℕ) : ℝ) * h)) := Real.one_le_exp (by positivity)
    have h6 : (1 + Λ * h) * e k ≤ Real.exp (Λ * (((k + 1 : ℕ) : ℝ) * h)) * (e 0 + k * h * (C * h)) := by
      have hp : 0 ≤ Real.exp (Λ * (k * h)) * (e 0 + k * h * (C * h)) := by positivity
      rw [h4, mul_assoc]
      exact (mul_le_mul_of_nonneg_left h2 (by positivity)).trans (mul_le_mul_of_nonneg_right h3 hp)
    have h7 : C * h ^ 2 ≤ Real.exp (Λ * (((k + 1 : ℕ) : ℝ) * h)) * (C * h ^ 2) := le_mul_of_one_le_left (by positivity) h5
    calc e (k + 1) ≤ _ := h1
      _ ≤ Real.exp (Λ * (((k + 1 : ℕ) : ℝ) * h)) * (e 0 + k * h * (C * h)) + Real.exp (Λ * (((k + 1 : ℕ) : ℝ) * h)) * (C * h ^ 2) := add_le_add h6 h7
      _ = _ := by push_cast; ring

end

end Verif
