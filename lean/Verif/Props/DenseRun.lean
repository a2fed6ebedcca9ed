import Verif.Lemmas.DopriDenseRun

/-! # C66: `integrate_adaptive` and `integrate_times` with the dense output stepper of `runge_kutta_dopri5`, end to end -/

set_option linter.unusedSectionVars false

namespace Verif
open BSeries

variable {W : Type} {d : ℕ}

/-- **C66** for `dense_output_runge_kutta< controlled_runge_kutta< runge_kutta_dopri5 > >`. -/
theorem dense_dopri5_integrates {sys : Sys ℝ (Fin d → ℝ) W} {f : (Fin d → ℝ) → ℝ → Fin d → ℝ} (hs : Evaluates sys f) (hf : GoodRhs f 6)
    {φ : ℝ → Fin d → ℝ} (hφ : IsFlowLine f φ) :
    IntegratesDensely 5 f (fun x t h r => ∀ w, ∃ k' w', dopri5ErrStep sys x (f x t) t h w = .ok ((r.1, k'), r.2) w')
      (fun τ maxDt => denseObject (τ.controlUpTo d 5 4 maxDt) sys) φ := by
  intro a b ρ
  obtain ⟨K, hK⟩ := dopri5_dense_setup hs hf hφ a b ρ
  refine ⟨K, fun τ maxDt H t0 dt x0 q w l hτ hx0 ht0 hdt => ⟨fun t1 ht1 h01 hlim => ?_, fun times htimes hmono hnot hlim => ?_⟩⟩
  · have h01' : 0 ≤ dirSign dt * (t1 - t0) := by
      have := (not_beyond_iff 0 dt t0 t1).1 h01
      rw [mul_sub] at this ⊢; linarith
    obtain ⟨g, Fail, hg, hgdt, hfail, hst, hreach, -⟩ := hK τ maxDt H t0 t1 dt x0 hτ hx0 ht0 ht1 hdt h01' hlim
    have hrun := adaptive_dense_run hdt hg hst h01' hgdt Relation.ReflTransGen.refl q w l
    have hσ : dirSign dt = 1 ∨ dirSign dt = -1 := by unfold dirSign; split <;> simp
    have hgood : ∀ l' : Log (Fin d → ℝ) ℝ, l'.observations.IsChain (DopriStep τ f (dirSign dt) (dirSign dt * t1) H) →
        l'.observations.head? = some (x0, t0) →
        l'.observations.IsChain (fun u v => SameDir dt (v.2 - u.2) ∧ |v.2 - u.2| ≤ H ∧ WithinTolerance τ f
          (fun x t h r => ∀ w, ∃ k' w', dopri5ErrStep sys x (f x t) t h w = .ok ((r.1, k'), r.2) w') u v) ∧
        l'.observations.head? = some (x0, t0) ∧ CloseTo φ (K * (‖x0 - φ t0‖ + H ^ 5)) l' := by
      intro l' hch hhd
      refine ⟨hch.imp fun u v h => ⟨(sameDir_iff hdt).2 h.pos, by rw [abs_of_sign hσ h.pos.le]; exact h.le,
        dopri5Error (f u.1 u.2) (v.2 - u.2) (dopri5Fun f u.1 (f u.1 u.2) u.2 (v.2 - u.2)), fun w => ?_, h.error⟩, hhd, fun o ho => ?_⟩
      · obtain ⟨w', e⟩ := dopri5Step_value hs u.1 (f u.1 u.2) u.2 (v.2 - u.2) w
        refine ⟨(dopri5Fun f u.1 (f u.1 u.2) u.2 (v.2 - u.2)).k7, w', ?_⟩
        unfold dopri5ErrStep
        rw [M.bind_ok e]
        dsimp only
        rw [h.state]
        rfl
      · exact hreach _ (reached_of_chain hch hhd ho)
    intro Run
    cases hres : integrateAdaptiveDense (TimeArith.exact ℝ 0) (denseObject (τ.controlUpTo d 5 4 maxDt) sys) recordObserver q x0 t0 t1 dt (w, l) with
    | ub => rw [hres] at hrun; exact hrun.elim
    | div => rw [hres] at hrun; exact hrun.elim
    | ok r w' =>
      rw [hres] at hrun
      obtain ⟨l', e1, h1, h2, h3, h4⟩ := StepsDone.log hrun
      obtain ⟨w', l''⟩ := w'
      obtain ⟨x, n⟩ := r
      dsimp only at e1
      subst e1
      exact .inl ⟨x, n, w', l', rfl, hgood l' h1 h2, h3, h4⟩
    | err e w' =>
      rw [hres] at hrun
      obtain ⟨rfl, hF, v, n, hrun⟩ := hrun
      obtain ⟨l', e1, h1, h2, -, -⟩ := StepsDone.log hrun
      obtain ⟨w', l''⟩ := w'
      dsimp only at e1
      subst e1
      exact .inr ⟨w', l', rfl, hgood l' h1 h2, hfail hF⟩
  · have hσ : dirSign dt = 1 ∨ dirSign dt = -1 := by unfold dirSign; split <;> simp
    have hle : ∀ s ∈ times, 0 ≤ dirSign dt * (s - t0) := by
      intro s hs
      have := (List.pairwise_cons.1 hmono).1 s hs
      unfold dirSign
      split
      · rename_i h; rw [if_pos h] at this; linarith
      · rename_i h; rw [if_neg h] at this; linarith
    have hlt : ∀ s ∈ times, 0 < dirSign dt * (s - t0) := by
      intro s hs
      refine lt_of_le_of_ne (hle s hs) fun h => hnot ?_
      have : s - t0 = 0 := by rcases hσ with h' | h' <;> rw [h'] at h <;> linarith
      rw [← sub_eq_zero.1 this]; exact hs
    have hlast : times.getLastD t0 = t0 ∨ times.getLastD t0 ∈ times := by
      cases times with
      | nil => exact .inl rfl
      | cons s rest => exact .inr (by rw [List.getLastD_cons]; exact List.getLastD_mem_cons ..)
    have ht1 : times.getLastD t0 ∈ Set.Icc a b := by
      rcases hlast with h | h
      · rw [h]; exact ht0
      · exact htimes _ h
    have h01 : 0 ≤ dirSign dt * (times.getLastD t0 - t0) := by
      rcases hlast with h | h
      · rw [h]; simp
      · exact hle _ h
    obtain ⟨g, Fail, hg, hgdt, hfail, hst, hreach, hbetween⟩ := hK τ maxDt H t0 (times.getLastD t0) dt x0 hτ hx0 ht0 ht1 hdt h01 hlim
    have hrun := times_dense_run hdt hg hst hmono hlt hgdt Relation.ReflTransGen.refl q w l
    have hclose : ∀ (l' : Log (Fin d → ℝ) ℝ) (obs : List ((Fin d → ℝ) × ℝ)), l'.observations = (x0, t0) :: obs →
        (∀ o ∈ obs, DopriBetween τ f (dirSign dt) (dirSign dt * times.getLastD t0) H (x0, t0) o.1 o.2) →
        CloseTo φ (K * (‖x0 - φ t0‖ + H ^ 5)) l' := by
      intro l' obs e h o ho
      rw [e] at ho
      rcases List.mem_cons.1 ho with rfl | ho
      · exact hreach (x0, t0) .refl
      · exact hbetween _ _ (h o ho)
    cases hres : integrateTimesDense (TimeArith.exact ℝ 0) (denseObject (τ.controlUpTo d 5 4 maxDt) sys) recordObserver q x0 (t0 :: times) dt (w, l) with
    | ub => rw [hres] at hrun; exact hrun.elim
    | div => rw [hres] at hrun; exact hrun.elim
    | ok r w' =>
      rw [hres] at hrun
      obtain ⟨l', obs, e1, e2, e3, h1, h2⟩ := TimesSoFar.log hrun
      obtain ⟨w', l''⟩ := w'
      obtain ⟨x, n⟩ := r
      dsimp only at e1
      subst e1
      refine .inl ⟨x, n, w', l', rfl, ?_, ?_, hclose l' obs e2 h1, h2⟩
      · rw [e2, List.map_cons]; rw [List.append_nil] at e3; rw [e3]
      · rw [e2]; rfl
    | err e w' =>
      rw [hres] at hrun
      obtain ⟨rfl, hF, rest, x, hrun⟩ := hrun
      obtain ⟨l', obs, e1, e2, e3, h1, h2⟩ := TimesSoFar.log hrun
      obtain ⟨w', l''⟩ := w'
      dsimp only at e1
      subst e1
      refine .inr ⟨w', l', rfl, ?_, ?_, hclose l' obs e2 h1, hfail hF⟩
      · rw [e2, List.map_cons, ← e3]; exact List.prefix_cons_inj _ |>.2 (List.prefix_append _ _)
      · rw [e2]; rfl

end Verif
