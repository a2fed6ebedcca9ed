import Verif.Lemmas.Crash
import Verif.Lemmas.GridRun
import Verif.Lemmas.IntegrateFixed
import Mathlib.Tactic.Linarith
import Mathlib.Tactic.Ring

/-! # What a call of an integrate function that returns has done: a sequence of steps -/

namespace Verif
variable {V W Q : Type}

/-- All steps that return stand in the relation `R`, and they do not call the observer. -/
def StepsRelated (R : V → ℝ → ℝ → V → Prop) (st : BasicStepper Q (W × Log V ℝ) V ℝ) : Prop :=
  ∀ q x t dt w l q' y w' l', st.doStep q x t dt (w, l) = .ok (q', y) (w', l') → l' = l ∧ R x t dt y

theorem StepsRelated.leaves {R : V → ℝ → ℝ → V → Prop} {st : BasicStepper Q (W × Log V ℝ) V ℝ} (h : StepsRelated R st) (q : Q) (x : V) (t dt : ℝ) (w : W × Log V ℝ) :
    (st.doStep q x t dt w).Leaves (fun r w' => w'.2 = w.2 ∧ R x t dt r.2) (fun _ _ => True) := by
  cases e : st.doStep q x t dt w with
  | ok r w' => exact h q x t dt w.1 w.2 r.1 r.2 w'.1 w'.2 e
  | err _ _ => trivial
  | ub => trivial
  | div => trivial

theorem record_leaves (x : V) (t : ℝ) (w : W × Log V ℝ) : (recordObserver x t w).Leaves (fun _ w' => w'.2 = w.2 ++ [.obs x t]) (fun _ _ => True) := rfl

theorem seqObs_congr {X Y : ℕ → V} (t0 dt : ℝ) (k : ℕ) (h : ∀ j < k, X j = Y j) : seqObs X t0 dt 0 k = seqObs Y t0 dt 0 k := by
  unfold seqObs
  refine List.map_congr_left fun i hi => ?_
  rw [zero_add, h i (List.mem_range.1 hi)]

/-- The first `k` steps of a run, and what has been observed. -/
def Trace (R : V → ℝ → ℝ → V → Prop) (t0 dt : ℝ) (x0 : V) (l : Log V ℝ) (k : ℕ) (x : V) (l' : Log V ℝ) : Prop :=
  ∃ X : ℕ → V, X 0 = x0 ∧ X k = x ∧ (∀ j < k, R (X j) (t0 + j * dt) dt (X (j + 1))) ∧ l' = l ++ seqObs X t0 dt 0 k

theorem Trace.step {R : V → ℝ → ℝ → V → Prop} {t0 dt : ℝ} {x0 x y : V} {l l' : Log V ℝ} {k : ℕ} (h : Trace R t0 dt x0 l k x l')
    (hy : R x (t0 + k * dt) dt y) : Trace R t0 dt x0 l (k + 1) y (l' ++ [.obs x (t0 + k * dt)]) := by
  obtain ⟨X, h0, h1, h2, h3⟩ := h
  refine ⟨Function.update X (k + 1) y, by rw [Function.update_of_ne (by omega)]; exact h0, by simp, ?_, ?_⟩
  · intro j hj
    rw [Function.update_of_ne (by omega)]
    rcases Nat.lt_succ_iff_lt_or_eq.1 hj with hj | rfl
    · rw [Function.update_of_ne (by omega)]; exact h2 j hj
    · rw [Function.update_self, h1]; exact hy
  · rw [h3, seqObs_last, seqObs_congr (X := Function.update X (k + 1) y) (Y := X) t0 dt k fun j hj => Function.update_of_ne (show j ≠ k + 1 by omega) _ _, zero_add,
      Function.update_of_ne (show k ≠ k + 1 by omega), h1,
      List.append_assoc]

variable {R : V → ℝ → ℝ → V → Prop} {st : BasicStepper Q (W × Log V ℝ) V ℝ}

theorem nSteps_trace (eps : ℝ) (hst : StepsRelated R st) (q : Q) (x0 : V) (t0 dt : ℝ) (n : ℕ) (w : W) (l : Log V ℝ) :
    (integrateNStepsBasic (TimeArith.exact ℝ eps) st recordObserver q x0 t0 dt n (w, l)).Leaves
      (fun r w' => ∃ l', Trace R t0 dt x0 l n r.1 l' ∧ w'.2 = l' ++ [.obs r.1 (t0 + n * dt)] ∧ r.2 = t0 + n * dt) (fun _ _ => True) := by
  have key : ∀ m k (s : NState Q V ℝ) (w : W × Log V ℝ), k + m = n → Trace R t0 dt x0 l k s.x w.2 → s.time = t0 + k * dt →
      (nStepsBasicLoop (TimeArith.exact ℝ eps) st recordObserver t0 dt m k s w).Leaves
        (fun s' w' => Trace R t0 dt x0 l n s'.x w'.2 ∧ s'.time = t0 + n * dt) (fun _ _ => True) := by
    intro m
    induction m with
    | zero =>
      intro k s w hk h1 h2
      obtain rfl : k = n := by omega
      exact ⟨h1, h2⟩
    | succ m ih =>
      intro k s w hk h1 h2
      unfold nStepsBasicLoop
      refine Res.Leaves.bind (record_leaves s.x s.time w) fun _ w1 e1 => ?_
      refine Res.Leaves.bind (hst.leaves s.q s.x s.time dt w1) ?_
      rintro ⟨q', y⟩ w2 ⟨e2, e3⟩
      refine ih (k + 1) _ w2 (by omega) ?_ ?_
      · rw [e2, e1, h2]
        exact h1.step (h2 ▸ e3)
      · simp [TimeArith.exact]
  unfold integrateNStepsBasic
  refine Res.Leaves.bind (key n 0 ⟨q, x0, t0⟩ (w, l) (by omega) ⟨fun _ => x0, rfl, rfl, by simp, by simp [seqObs]⟩ (by simp)) ?_
  rintro s w1 ⟨h1, h2⟩
  refine Res.Leaves.bind (record_leaves s.x s.time w1) fun _ w2 e1 => ?_
  exact ⟨w1.2, h1, by rw [e1, h2], h2⟩

theorem const_trace (eps : ℝ) (hst : StepsRelated R st) (q : Q) (x0 : V) (t0 t1 dt : ℝ) (w : W) (l : Log V ℝ) :
    (integrateConstBasic (TimeArith.exact ℝ eps) st recordObserver q x0 t0 t1 dt (w, l)).Leaves
      (fun r w' => ∃ l', Trace R t0 dt x0 l r.2 r.1 l' ∧ w'.2 = l' ++ [.obs r.1 (t0 + r.2 * dt)] ∧
        (∀ j < r.2, (TimeArith.exact ℝ eps).lessEqWithSign (t0 + j * dt + dt) t1 dt = true) ∧
        (TimeArith.exact ℝ eps).lessEqWithSign (t0 + r.2 * dt + dt) t1 dt = false) (fun _ _ => True) := by
  unfold integrateConstBasic
  refine Res.Leaves.bind (whileM_leaves (fun (s : ConstState Q V ℝ) (w : W × Log V ℝ) => Trace R t0 dt x0 l s.step s.x w.2 ∧ s.time = t0 + s.step * dt ∧
    ∀ j < s.step, (TimeArith.exact ℝ eps).lessEqWithSign (t0 + j * dt + dt) t1 dt = true) ?_
    ⟨⟨fun _ => x0, rfl, rfl, by simp, by simp [seqObs]⟩, by simp, by simp⟩) ?_
  · rintro s w1 ⟨h1, h2, h3⟩ hc
    refine Res.Leaves.bind (record_leaves s.x s.time w1) fun _ w2 e1 => ?_
    refine Res.Leaves.bind (hst.leaves s.q s.x s.time dt w2) ?_
    rintro ⟨q', y⟩ w3 ⟨e2, e3⟩
    refine ⟨?_, by simp [TimeArith.exact], ?_⟩
    · show Trace R t0 dt x0 l (s.step + 1) y w3.2
      rw [e2, e1, h2]
      exact h1.step (h2 ▸ e3)
    · intro j hj
      rcases Nat.lt_succ_iff_lt_or_eq.1 hj with hj | rfl
      · exact h3 j hj
      · rw [← h2]; exact hc
  · rintro s w1 ⟨⟨h1, h2, h3⟩, hc⟩
    refine Res.Leaves.bind (record_leaves s.x s.time w1) fun _ w2 e1 => ?_
    refine ⟨w1.2, h1, by rw [e1, h2], h3, ?_⟩
    rw [← h2]; exact hc

theorem adaptive_trace (eps : ℝ) (hst : StepsRelated R st) (q : Q) (x0 : V) (t0 t1 dt : ℝ) (w : W) (l : Log V ℝ) :
    (integrateAdaptiveBasic (TimeArith.exact ℝ eps) st recordObserver q x0 t0 t1 dt (w, l)).Leaves
      (fun r w' => ∃ k x l', Trace R t0 dt x0 l k x l' ∧
        (∀ j < k, (TimeArith.exact ℝ eps).lessEqWithSign (t0 + j * dt + dt) t1 dt = true) ∧
        (TimeArith.exact ℝ eps).lessEqWithSign (t0 + k * dt + dt) t1 dt = false ∧
        (((TimeArith.exact ℝ eps).lessWithSign (t0 + k * dt) t1 dt = false ∧ r = (x, k) ∧ w'.2 = l' ++ [.obs x (t0 + k * dt)]) ∨
          ((TimeArith.exact ℝ eps).lessWithSign (t0 + k * dt) t1 dt = true ∧ R x (t0 + k * dt) (t1 - (t0 + k * dt)) r.1 ∧ r.2 = k + 1 ∧
            w'.2 = l' ++ [.obs x (t0 + k * dt)] ++ [.obs r.1 t1]))) (fun _ _ => True) := by
  unfold integrateAdaptiveBasic
  refine Res.Leaves.bind (const_trace eps hst q x0 t0 t1 dt w l) ?_
  rintro ⟨x, k⟩ w1 ⟨l', h1, h2, h3, h4⟩
  have he : (TimeArith.exact ℝ eps).add t0 ((TimeArith.exact ℝ eps).nmul k dt) = t0 + k * dt := by simp [TimeArith.exact]
  simp only [he]
  by_cases hc : (TimeArith.exact ℝ eps).lessWithSign (t0 + k * dt) t1 dt = true
  · rw [if_pos hc]
    refine Res.Leaves.bind (hst.leaves q x (t0 + k * dt) _ w1) ?_
    rintro ⟨q', y⟩ w2 ⟨e2, e3⟩
    refine Res.Leaves.bind (record_leaves y t1 w2) fun _ w3 e1 => ?_
    refine ⟨k, x, l', h1, h3, h4, Or.inr ⟨hc, ?_, rfl, ?_⟩⟩
    · exact e3
    · rw [e1, e2, h2]
  · rw [if_neg hc]
    exact ⟨k, x, l', h1, h3, h4, Or.inl ⟨by simpa using hc, rfl, h2⟩⟩

end Verif
