import Verif.Lemmas.RosControl

/-!
# C93: integrations with `rosenbrock4_controller` are reliable
-/

namespace Verif
open BSeries Filter Topology Finset

variable {W : Type} {d : ℕ}

/-- A new controller is usable. -/
theorem ros_new_usable (q : Heap ℝ (Fin d → ℝ) W) (h : rosMem q = RosMem.new) : RosUsable q := .inl (by rw [h]; rfl)

/-- **C93** (the memory of the controller): whatever the user did before, a controller is usable after a try that returns, if it was so before. -/
theorem ros_usable_kept {Mat : Type} (atol rtol maxDt : ℝ) (C : RosCoef ℝ) (solve : ℝ → Mat → (Fin d → ℝ) → Fin d → ℝ) (sys : Sys ℝ (Fin d → ℝ) W)
    (jac : Jac ℝ (Fin d → ℝ) W Mat) (x : ℕ) (t dt : ℝ) (q q' : Heap ℝ (Fin d → ℝ) W) (r : TryOut ℝ) (hq : RosUsable q)
    (hr : rosTry4 (rosControl d atol rtol maxDt) C solve sys jac (.user x) t dt q = .ok r q') : RosUsable q' := by
  rcases ros_try_result _ C solve sys jac x t dt q q' r hr with ⟨-, -, h, -⟩ | ⟨-, s, w, err, -, -, -, -, -, -, h, -⟩
  · unfold RosUsable; rw [h]; exact hq
  · have hm := (rosDecide_mem (eps := 0) maxDt (rosMem q) dt err).2
    have h' : rosMem q' = (rosDecide (realOps 0) maxDt (rosMem q) dt err).2.2 := h
    unfold RosUsable
    rw [h', hm]
    split
    · exact .inr (le_max_left _ _)
    · exact hq

/-- the limit of the step size is respected -/
theorem ros_limit_check {σ L dt : ℝ} (hσ : σ = 1 ∨ σ = -1) (hL : 0 < L) (hdt : 0 < σ * dt) :
    (!(realOps 0).eq (σ * L) (lit 0) && (realOps 0).time.lessWithSign (σ * L) dt dt) = decide (L < σ * dt) := by
  rcases hσ with h | h <;> subst h
  · rw [one_mul] at hdt
    simp [realOps, NumOps.time, TimeArith.lessWithSign, lit, hdt, hL.ne']
  · have h1 : dt < 0 := by linarith
    simp [realOps, NumOps.time, TimeArith.lessWithSign, lit, h1.not_gt, hL.ne', lt_neg]

set_option maxHeartbeats 1600000 in
/-- **C93**.  The integrate functions with `rosenbrock4_controller` are reliable, if the limit of the step size is small enough: for every right hand side that does
not depend on the time, is six times continuously differentiable and Lipschitz continuous with constant `L`, and every solution `φ`, when the first three derivatives
of the right hand side along the solution are bounded by `m`.  For all start states not further than `R` from the solution there are a constant `C` and a limit
`h₀` such that for all tolerances, all controllers with a limit of the step size up to `h₀`, new or used, and every first step size all calls are reliable in the
sense of `ReliableCalls`: they throw only if the absolute tolerance is below `C * 0.9^498`, and if no step is longer than `H`, all observed states differ from the
solution by at most `C * ( |x0 - φ t0| + H^4 )`, up to the rounding of the tabulated coefficients of the method. -/
theorem rosenbrock4_controller_reliable {F : (Fin d → ℝ) → Fin d → ℝ} (hF : ContDiff ℝ 6 F) {L : ℝ} (hL : 0 ≤ L) (hlip : ∀ x y, ‖F x - F y‖ ≤ L * ‖x - y‖)
    {φ : ℝ → Fin d → ℝ} (hφ : IsFlowLine (fun x _ => F x) φ) {solve : ℝ → ((Fin d → ℝ) →ₗ[ℝ] (Fin d → ℝ)) → (Fin d → ℝ) → Fin d → ℝ}
    (hsol : SolvesRegular solve) {sys : Sys ℝ (Fin d → ℝ) W} (hs : Evaluates sys fun x _ => F x)
    {jac : Jac ℝ (Fin d → ℝ) W ((Fin d → ℝ) →ₗ[ℝ] (Fin d → ℝ))} (hj : Differentiates jac F) {a b m : ℝ}
    (hm : ∀ t ∈ Set.Icc (a - 1) (b + 1), ∀ k, k ≤ 3 → ‖iteratedFDeriv ℝ k F (φ t)‖ ≤ m) (R : ℝ) :
    ∃ C h₀ : ℝ, 0 < h₀ ∧ ∀ (atol rtol maxDt t0 dt : ℝ) (x0 : Fin d → ℝ) (q : Heap ℝ (Fin d → ℝ) W) (w : W) (l : Log (Fin d → ℝ) ℝ),
      0 < atol → 0 ≤ rtol → RosUsable q → ‖x0 - φ t0‖ ≤ R → t0 ∈ Set.Icc a b → dt ≠ 0 → SameDir dt maxDt → |maxDt| ≤ h₀ →
      ReliableCalls (controlledObject fun x t dt => rosTry4 (rosControl d atol rtol maxDt) defaultRosenbrock solve sys jac x t dt) a b maxDt t0 dt x0 q w l
        (RosWithinTolerance atol rtol solve sys jac) φ
        (fun H => C * (‖x0 - φ t0‖ + H ^ 4) + 2 / 10 ^ 14 * m * (b - a + 1) * Real.exp ((2 * L + 1) * (b - a + 1)))
        (atol < C * (9 / 10) ^ 498) := by
  rcases lt_or_ge b a with hab | hab
  · exact ⟨0, 1, one_pos, fun atol rtol maxDt t0 dt x0 q w l _ _ _ _ ht0 => absurd (ht0.1.trans ht0.2) (not_le.2 hab)⟩
  have hm0 : 0 ≤ m := (norm_nonneg _).trans (hm a ⟨by linarith, by linarith⟩ 0 (by omega))
  set B := b - a + 1 with hBdef
  have hB0 : 0 < B := by rw [hBdef]; linarith
  set Λ := 2 * L + 1 with hΛdef
  have hΛ : 0 ≤ Λ := by rw [hΛdef]; linarith
  set D := 2 / 10 ^ 14 * m with hDdef
  have hD : 0 ≤ D := by rw [hDdef]; positivity
  set E := Real.exp (Λ * B) * (|R| + B * (D + 1)) with hEdef
  obtain ⟨A, M, η, hA, hM, hη, hnear⟩ := ros_near hF hL hlip hφ hm0 hm (E := E) (by rw [hEdef]; positivity)
  set C := max (Real.exp (Λ * B) * (1 + B * A)) (1000 * (M + 1) * B) with hCdef
  refine ⟨C, min η (min 1 (1 / (A + 1))), lt_min hη (lt_min one_pos (by positivity)), ?_⟩
  intro atol rtol maxDt t0 dt x0 q w l hatol hrtol hq hx0 ht0 hdt hmax hlim
  set σ := dirSign dt with hσdef
  have hσ : σ = 1 ∨ σ = -1 := by rw [hσdef]; unfold dirSign; split <;> simp
  have hσσ : σ * σ = 1 := by rcases hσ with h | h <;> rw [h] <;> norm_num
  set e0 := ‖x0 - φ t0‖ with he0def
  have he0 : 0 ≤ e0 := norm_nonneg _
  -- the limit
  set l0 := σ * maxDt with hl0
  have hl0p : 0 < l0 := (sameDir_iff hdt).1 hmax
  have hmaxeq : maxDt = σ * l0 := by rw [hl0, ← mul_assoc, hσσ, one_mul]
  have hl0abs : |maxDt| = l0 := abs_of_sign hσ hl0p.le
  rw [hl0abs] at hlim
  have hlη : l0 ≤ η := hlim.trans (min_le_left _ _)
  have hl1 : l0 ≤ 1 := hlim.trans ((min_le_right _ _).trans (min_le_left _ _))
  have hlA : A * l0 ≤ 1 := by
    have := hlim.trans ((min_le_right _ _).trans (min_le_right _ _))
    rw [le_div_iff₀ (by positivity)] at this
    have h1 : l0 * (A + 1) = A * l0 + l0 := by ring
    rw [h1] at this
    linarith
  have hpow4 : ∀ h : ℝ, |h| ≤ l0 → A * |h| ^ 4 ≤ 1 := by
    intro h hh
    have h1 : |h| ^ 4 ≤ l0 := by
      calc |h| ^ 4 ≤ l0 ^ 4 := pow_le_pow_left₀ (abs_nonneg _) hh 4
        _ ≤ l0 ^ 1 := pow_le_pow_of_le_one hl0p.le hl1 (by norm_num)
        _ = l0 := pow_one _
    exact (mul_le_mul_of_nonneg_left h1 hA).trans hlA
  -- the times
  set T := max (σ * a) (σ * b) + 1 with hTdef
  have hTm : T = if σ = 1 then b + 1 else 1 - a := by
    rw [hTdef]
    rcases hσ with h | h <;> rw [h]
    · rw [if_pos rfl, one_mul, one_mul, max_eq_right hab]
    · rw [if_neg (by norm_num), neg_one_mul, neg_one_mul, max_eq_left (by linarith)]; ring
  have hin : ∀ t ∈ Set.Icc a b, σ * t + 1 ≤ T := by
    intro t ht
    rw [hTm]
    rcases hσ with h | h <;> rw [h]
    · rw [if_pos rfl]; linarith [ht.2]
    · rw [if_neg (by norm_num)]; linarith [ht.1]
  have hTB : T - σ * t0 ≤ B := by
    rw [hTm, hBdef]
    rcases hσ with h | h <;> rw [h]
    · rw [if_pos rfl]; linarith [ht0.1]
    · rw [if_neg (by norm_num)]; linarith [ht0.2]
  have hIcc : ∀ t, 0 ≤ σ * (t - t0) → σ * t ≤ T → t ∈ Set.Icc (a - 1) (b + 1) := by
    intro t h1 h2
    rw [hTm] at h2
    rcases hσ with h | h <;> rw [h] at h1 h2
    · rw [if_pos rfl] at h2; constructor <;> linarith [ht0.1]
    · rw [if_neg (by norm_num)] at h2; constructor <;> linarith [ht0.2]
  have hT0 : σ * t0 ≤ T := by linarith [hin t0 ht0]
  -- the tube
  set tube : (Fin d → ℝ) → ℝ → Prop := fun x t => 0 ≤ σ * (t - t0) ∧ σ * t ≤ T ∧
    ‖x - φ t‖ ≤ Real.exp (Λ * (σ * (t - t0))) * (e0 + σ * (t - t0) * (D + 1)) with htube
  have htubeE : ∀ x t, tube x t → ‖x - φ t‖ ≤ E := by
    intro x t ⟨h1, h2, h3⟩
    refine h3.trans ?_
    have h4 : σ * (t - t0) ≤ B := by rw [mul_sub]; linarith
    rw [hEdef]
    refine mul_le_mul (Real.exp_le_exp.2 (mul_le_mul_of_nonneg_left h4 hΛ)) ?_ (by positivity) (Real.exp_pos _).le
    exact add_le_add (hx0.trans (le_abs_self R)) (mul_le_mul_of_nonneg_right h4 (by positivity))
  have htube0 : tube x0 t0 := ⟨by simp, hT0, by simp [he0def]⟩
  set Φ : (Fin d → ℝ) → ℝ → ℝ → Fin d → ℝ := fun x _ h => x + h • rosR F (x, h) with hΦ
  set err : (Fin d → ℝ) → ℝ → ℝ := fun x h =>
    rosError (realOps 0) Real.sqrt atol rtol (List.ofFn (x + h • rosR F (x, h))) (List.ofFn x) (List.ofFn (h • rosE F (x, h))) with herr
  have hstep : ∀ x t h, tube x t → 0 < σ * h → σ * (t + h) ≤ T → σ * h ≤ l0 → tube (Φ x t h) (t + h) := by
    intro x t h ht hh hT hl
    have habs : |h| = σ * h := abs_of_sign hσ hh.le
    have hn := (hnear t (hIcc t ht.1 ht.2.1) x (htubeE x t ht) h (by rw [habs]; exact hl.trans hlη)).2.2
    have hp := hpow4 h (by rw [habs]; exact hl)
    have e : σ * (t + h - t0) = σ * (t - t0) + |h| := by rw [habs]; ring
    refine ⟨by rw [e]; have := ht.1; positivity, hT, ?_⟩
    rw [e]
    exact ros_error_growth hΛ ht.1 (abs_nonneg h) he0 (by linarith) (by positivity) ht.2.2 hn
  have hval : ∀ x t h, tube x t → 0 < σ * h → σ * h ≤ l0 → ∀ w, ∃ r w', rosStep defaultRosenbrock solve sys jac x t h w = .ok r w' ∧
      r.x ℝ = x + h • rosR F (x, h) ∧ r.g6 = h • rosE F (x, h) := by
    intro x t h ht hh hl w
    have habs : |h| = σ * h := abs_of_sign hσ hh.le
    have hne : h ≠ 0 := by rintro rfl; simp at hh
    have hu := (hnear t (hIcc t ht.1 ht.2.1) x (htubeE x t ht) h (by rw [habs]; exact hl.trans hlη)).1
    obtain ⟨r, w', e, hr⟩ := ros_step_value hsol hs hj t hne hu w
    exact ⟨r, w', e, hr, ros_step_estimate hsol hs hj t hne hu e⟩
  set hs' := atol / (1000 * (M + 1)) with hhs'
  have hs0 : 0 < hs' := by rw [hhs']; positivity
  have hsmall : ∀ x t h, tube x t → 0 < σ * h → σ * h ≤ l0 → 0 ≤ err x h ∧ (σ * h ≤ hs' → err x h ≤ 1 / 1000) := by
    intro x t h ht hh hl
    have habs : |h| = σ * h := abs_of_sign hσ hh.le
    have hb := (hnear t (hIcc t ht.1 ht.2.1) x (htubeE x t ht) h (by rw [habs]; exact hl.trans hlη)).2.1
    obtain ⟨h1, h2⟩ := ros_error_le hatol hrtol (x + h • rosR F (x, h)) x (h • rosE F (x, h))
    refine ⟨h1, fun h3 => h2.trans ?_⟩
    rw [norm_smul, Real.norm_eq_abs, habs, div_le_iff₀ hatol]
    rw [hhs', le_div_iff₀ (by positivity)] at h3
    have h4 : σ * h * ‖rosE F (x, h)‖ ≤ σ * h * M := mul_le_mul_of_nonneg_left hb hh.le
    have h5 : σ * h * (1000 * (M + 1)) = 1000 * (σ * h * M) + 1000 * (σ * h) := by ring
    rw [h5] at h3
    linarith
  set Acc : (Fin d → ℝ) → ℝ → ℝ → Prop := fun x t h => tube x t ∧ σ * (t + h) ≤ T ∧ err x h ≤ 1 with hAcc
  set st := controlledObject fun x t dt => rosTry4 (rosControl d atol rtol maxDt) defaultRosenbrock solve sys jac x t dt with hst
  set Rel : Heap ℝ (Fin d → ℝ) W → (Fin d → ℝ) → ℝ → Prop := fun q x t => RosUsable q ∧ tube x t with hRel
  set G : Heap ℝ (Fin d → ℝ) W → ℝ → Prop := fun q h => (rosMem q).first = true ∨ (rosMem q).dtOld / h ≤ 5 with hG
  have hmem : ∀ (q : Heap ℝ (Fin d → ℝ) W) x w, rosMem ((q.set (.user 0) x).withWorld w) = rosMem q := fun q x w => rfl
  have htry : TryMem st Rel G (fun x t h y => y = Φ x t h) Acc (9 / 10) σ T hs' l0 := by
    refine ⟨by norm_num, ?_, ?_⟩
    · intro q x t h w l ⟨hu, ht⟩ hh hT hl
      have hcheck := ros_limit_check hσ hl0p hh
      rw [← hmaxeq, decide_eq_false (not_lt.2 hl)] at hcheck
      obtain ⟨s, w', e, hsx, hsg⟩ := hval x t h ht hh hl w
      have hX : ((q.set (.user 0) x).withWorld w).state (.user 0) = x := by simp [Heap.withWorld, Heap.set]
      obtain ⟨h', b1, b2, b3, b4⟩ := ros_try_value (rosControl d atol rtol maxDt) defaultRosenbrock solve sys jac t h ((q.set (.user 0) x).withWorld w) hcheck
        (s := s) (w := w') (by rw [hX]; exact e)
      rw [hX, hmem] at b1 b3 b4
      have herr' : (rosControl d atol rtol maxDt).error (s.x ℝ) x s.g6 = err x h := by rw [hsx, hsg]; rfl
      rw [herr'] at b1 b3 b4
      rw [hsx] at b4
      obtain ⟨c, c1, c2, c3, c4⟩ := rosDecide_sign (eps := 0) hσ hl0p (rosMem q) (err := err x h) hh hl
      rw [← hmaxeq] at c4
      obtain ⟨m1, m2⟩ := rosDecide_mem (eps := 0) maxDt (rosMem q) h (err x h)
      have b1' : rosTry4 (rosControl d atol rtol maxDt) defaultRosenbrock solve sys jac (.user 0) t h ((q.set (.user 0) x).withWorld w) =
        .ok ⟨(rosDecide (realOps 0) maxDt (rosMem q) h (err x h)).1, if (rosDecide (realOps 0) maxDt (rosMem q) h (err x h)).1 then t + h else t,
          (rosDecide (realOps 0) maxDt (rosMem q) h (err x h)).2.1⟩ h' := b1
      have b3' : rosMem h' = (rosDecide (realOps 0) maxDt (rosMem q) h (err x h)).2.2 := b3
      have b4' : h'.state (.user 0) = if (rosDecide (realOps 0) maxDt (rosMem q) h (err x h)).1 then x + h • rosR F (x, h) else x := b4
      rw [m1] at b1' b4'
      rw [m2] at b3'
      set h2 := (rosDecide (realOps 0) maxDt (rosMem q) h (err x h)).2.1 with hh2
      have hrun : st.tryStep q x t h (w, l) = .ok ⟨h', h'.state (.user 0), if decide (err x h ≤ 1) then t + h else t, h2, decide (err x h ≤ 1)⟩ (h'.world, l) := by
        simp only [hst, controlledObject, b1']
      obtain ⟨hs1, hs2⟩ := hsmall x t h ht hh hl
      have hh2pos : 0 < σ * h2 := by
        rw [c4]; exact lt_min hl0p (mul_pos hh (by linarith))
      have hh25 : σ * h / 5 ≤ σ * h2 := by
        rw [c4]; refine le_min (by linarith) ?_
        have := mul_le_mul_of_nonneg_left c2 hh.le
        linarith
      have hkeep : G q h → σ * h ≤ hs' → σ * h ≤ σ * h2 := by
        intro hg hle
        obtain ⟨c', d1, d2⟩ := rosDecide_keep (eps := 0) (m := rosMem q) (dt := h) hs1 (hs2 hle) (by
          rcases hu with h | h
          · exact .inl h
          · rcases hg with h' | h'
            · exact .inl h'
            · exact .inr ⟨h, h'⟩)
        have hne : h ≠ 0 := by rintro rfl; simp at hh
        have hcc : c = c' := mul_left_cancel₀ hne (c1.symm.trans d2)
        rw [c4]
        refine le_min hl ?_
        rw [hcc]
        exact le_mul_of_one_le_right hh.le d1
      refine ⟨_, _, hrun, hh2pos, by show σ * h / 20 ≤ σ * h2; linarith, ?_, ?_, ?_, hkeep⟩
      · by_cases he : err x h ≤ 1
        · rw [if_pos he] at b3'
          rw [if_pos (by simp [he])] at b4'
          refine ⟨.inr (by show 1 / 100 ≤ (rosMem h').errOld; rw [b3']; exact le_max_left _ _), ?_⟩
          show tube (h'.state (.user 0)) (if decide (err x h ≤ 1) then t + h else t)
          rw [b4', if_pos (by simp [he])]
          exact hstep x t h ht hh hT hl
        · rw [if_neg he] at b3'
          rw [if_neg (by simp [he])] at b4'
          refine ⟨by show _ ∨ _; rw [b3']; exact hu, ?_⟩
          show tube (h'.state (.user 0)) (if decide (err x h ≤ 1) then t + h else t)
          rw [b4', if_neg (by simp [he])]
          exact ht
      · intro hsucc
        have he : err x h ≤ 1 := of_decide_eq_true hsucc
        rw [if_pos he] at b3'
        rw [if_pos (by simp [he])] at b4'
        refine ⟨b4', by show (if _ then _ else _) = _; rw [if_pos (by simp [he])], ⟨ht, hT, he⟩, .inr ?_⟩
        show (rosMem h').dtOld / h2 ≤ 5
        rw [b3']
        show h / h2 ≤ 5
        have e1 : h / h2 = (σ * h) / (σ * h2) := by
          rw [mul_div_mul_left]
          rcases hσ with h | h <;> rw [h] <;> norm_num
        rw [e1, div_le_iff₀ hh2pos]
        linarith
      · intro hfail
        have he : ¬ err x h ≤ 1 := of_decide_eq_false hfail
        rw [if_neg (by simp [he])] at b4'
        refine ⟨b4', by show (if _ then _ else _) = _; rw [if_neg (by simp [he])], ?_, ?_⟩
        · show σ * h2 ≤ _
          rw [c4]
          refine (min_le_right _ _).trans ?_
          have := mul_le_mul_of_nonneg_left (c3 (not_le.1 he)) hh.le
          linarith
        · by_contra hle
          have := hs2 (not_lt.1 hle)
          exact he (by linarith)
    · intro q x t h w l ⟨hu, ht⟩ hh hT hl
      have hcheck := ros_limit_check hσ hl0p hh
      rw [← hmaxeq, decide_eq_true hl] at hcheck
      have hX : ((q.set (.user 0) x).withWorld w).state (.user 0) = x := by simp [Heap.withWorld, Heap.set]
      obtain ⟨h', b1, b2, b3⟩ := ros_try_limited (rosControl d atol rtol maxDt) defaultRosenbrock solve sys jac t h ((q.set (.user 0) x).withWorld w) hcheck
      rw [hmem] at b2
      rw [hX] at b3
      refine ⟨h', maxDt, h'.world, ?_, rfl, ?_, ht⟩
      · simp only [hst, controlledObject, b1, b3]
        rfl
      · show _ ∨ _
        rw [b2]; exact hu
  have hclose : ∀ H, 0 ≤ H → ∀ v, Relation.ReflTransGen (Accepted (fun x t h y => y = Φ x t h) Acc σ (min H l0)) (x0, t0) v →
      tube v.1 v.2 ∧ ‖v.1 - φ v.2‖ ≤ Real.exp (Λ * (σ * (v.2 - t0))) * (e0 + σ * (v.2 - t0) * (D + A * H ^ 4)) := by
    intro H hH v hv
    induction hv with
    | refl => exact ⟨htube0, by simp [he0def]⟩
    | @tail u v _ huv ih =>
      obtain ⟨k1, k2, k3, k4, k5, k6⟩ := huv
      obtain ⟨i1, i2⟩ := ih
      have hl : σ * (v.2 - u.2) ≤ l0 := k2.trans (min_le_right _ _)
      have habs : |v.2 - u.2| = σ * (v.2 - u.2) := abs_of_sign hσ k1.le
      have e : σ * (v.2 - t0) = σ * (u.2 - t0) + |v.2 - u.2| := by rw [habs]; ring
      have hn := (hnear u.2 (hIcc _ i1.1 i1.2.1) u.1 (htubeE _ _ i1) (v.2 - u.2) (by rw [habs]; exact hl.trans hlη)).2.2
      have ht := hstep u.1 u.2 (v.2 - u.2) i1 k1 k5 hl
      rw [← k3, add_sub_cancel] at ht
      refine ⟨ht, ?_⟩
      have k3' : v.1 = u.1 + (v.2 - u.2) • rosR F (u.1, v.2 - u.2) := k3
      rw [← k3', add_sub_cancel] at hn
      rw [e]
      refine ros_error_growth hΛ i1.1 (abs_nonneg _) he0 ?_ (by positivity) i2 hn
      have : |v.2 - u.2| ^ 4 ≤ H ^ 4 := pow_le_pow_left₀ (abs_nonneg _) (by rw [habs]; exact k2.trans (min_le_left _ _)) 4
      have := mul_le_mul_of_nonneg_left this hA
      linarith
  refine reliable_of_tryMem ht0 hdt hs0 hl0p (fun _ => hl0abs.symm) hin htry ⟨hq, htube0⟩ (fun _ _ _ h => ⟨hq, h.2⟩) ?_ ?_ ?_
  · intro X hX hh
    have h9 : (0 : ℝ) < (9 / 10) ^ 498 := by positivity
    generalize ((9 : ℝ) / 10) ^ 498 = z at hh h9 ⊢
    rw [hhs', div_lt_iff₀ (by positivity)] at hh
    have h4 : z * X * (1000 * (M + 1)) ≤ z * B * (1000 * (M + 1)) :=
      mul_le_mul_of_nonneg_right (mul_le_mul_of_nonneg_left hX h9.le) (by positivity)
    have h5 : 1000 * (M + 1) * B * z ≤ C * z := mul_le_mul_of_nonneg_right (le_max_right _ _) h9.le
    linarith
  · intro u v ⟨k1, k2, k3, k4, k5, k6⟩ w
    obtain ⟨r, w', r1, r2, r3⟩ := hval u.1 u.2 (v.2 - u.2) k4 k1 k2 w
    refine ⟨r, w', r1, k3.trans r2.symm, ?_⟩
    rw [k3, r3]
    exact k6
  · intro H hH0 v hv
    obtain ⟨i1, i2⟩ := hclose H hH0 v hv
    refine i2.trans ?_
    have h4 : σ * (v.2 - t0) ≤ B := by have := i1.2.1; rw [mul_sub]; linarith
    have h5 : Real.exp (Λ * (σ * (v.2 - t0))) ≤ Real.exp (Λ * B) := Real.exp_le_exp.2 (mul_le_mul_of_nonneg_left h4 hΛ)
    have h6 : e0 + σ * (v.2 - t0) * (D + A * H ^ 4) ≤ e0 + B * (D + A * H ^ 4) := by
      have := mul_le_mul_of_nonneg_right h4 (by positivity : 0 ≤ D + A * H ^ 4)
      linarith
    have h7 := mul_le_mul h5 h6 (by have := i1.1; positivity) (Real.exp_pos _).le
    refine h7.trans ?_
    have h8 : Real.exp (Λ * B) * (1 + B * A) * (e0 + H ^ 4) ≤ C * (e0 + H ^ 4) := mul_le_mul_of_nonneg_right (le_max_left _ _) (by positivity)
    have h9 : 0 ≤ Real.exp (Λ * B) * (B * A * e0 + H ^ 4) := by positivity
    have h10 : Real.exp (Λ * B) * (e0 + B * (D + A * H ^ 4)) + Real.exp (Λ * B) * (B * A * e0 + H ^ 4) =
        Real.exp (Λ * B) * (1 + B * A) * (e0 + H ^ 4) + D * B * Real.exp (Λ * B) := by ring
    show _ ≤ C * (e0 + H ^ 4) + D * B * Real.exp (Λ * B)
    linarith

/-! ## An example: `x' = sin x` -/

/-- division, for states with one component -/
noncomputable def vectorSolve (c : ℝ) (J : (Fin 1 → ℝ) →ₗ[ℝ] (Fin 1 → ℝ)) (b : Fin 1 → ℝ) : Fin 1 → ℝ := fun _ => b 0 / (c - J (fun _ => 1) 0)

theorem vectorSolve_regular : SolvesRegular vectorSolve := by
  intro c J hu b
  have hv : ∀ v : Fin 1 → ℝ, v = v 0 • fun _ => (1 : ℝ) := fun v => by
    ext i; rw [Subsingleton.elim i 0]; simp
  have hJ : ∀ v : Fin 1 → ℝ, J v 0 = v 0 * J (fun _ => 1) 0 := fun v => by
    conv_lhs => rw [hv v, map_smul]
    simp
  have h5 : c - J (fun _ => 1) 0 ≠ 0 := by
    intro h0
    obtain ⟨u, hu⟩ := hu
    have h1 : (u : Module.End ℝ (Fin 1 → ℝ)) (fun _ => 1) = 0 := by
      rw [hu]
      ext i
      rw [Subsingleton.elim i 0]
      simp [h0]
    have h2 : (u⁻¹ : (Module.End ℝ (Fin 1 → ℝ))ˣ).val ((u : Module.End ℝ (Fin 1 → ℝ)) (fun _ => 1)) = fun _ => 1 := by
      rw [← Module.End.mul_apply, Units.inv_mul, Module.End.one_apply]
    rw [h1, map_zero] at h2
    exact zero_ne_one (congrFun h2 0)
  ext i
  rw [Subsingleton.elim i 0]
  simp only [Pi.sub_apply, Pi.smul_apply, smul_eq_mul]
  rw [hJ]
  simp only [vectorSolve]
  rw [mul_comm, ← mul_sub, div_mul_cancel₀ _ h5]

/-- The hypotheses are met by `x' = sin x`, the solution zero and the start state 1, with any tolerances. -/
example : ∃ C h₀ : ℝ, 0 < h₀ ∧ ∀ atol > 0, C * (9 / 10) ^ 498 ≤ atol → ∃ r w' l',
    integrateAdaptiveControlled (TimeArith.exact ℝ 0) (controlledObject fun x t dt => rosTry4 (rosControl 1 atol 0 h₀) defaultRosenbrock vectorSolve
      (fun x _ => pure (fun i => Real.sin (x i)) : Sys ℝ (Fin 1 → ℝ) Unit)
      (fun x _ => pure ((fderiv ℝ (fun (x : Fin 1 → ℝ) i => Real.sin (x i)) x : (Fin 1 → ℝ) →ₗ[ℝ] (Fin 1 → ℝ)), 0)) x t dt) recordObserver
      ⟨fun _ => 0, fun _ => 0, fun _ => true, fun _ => 0, ()⟩ (fun _ => 1) 0 1 (1 / 10) ((), []) = .ok r (w', l') ∧ r.t = 1 := by
  have hF : ContDiff ℝ 6 (fun (x : Fin 1 → ℝ) i => Real.sin (x i)) := contDiff_pi.2 fun i => Real.contDiff_sin.comp (contDiff_apply ℝ ℝ i)
  have hlip : ∀ x y : Fin 1 → ℝ, ‖(fun i => Real.sin (x i)) - fun i => Real.sin (y i)‖ ≤ 1 * ‖x - y‖ := by
    intro x y
    rw [one_mul, pi_norm_le_iff_of_nonneg (norm_nonneg _)]
    intro i
    refine le_trans ?_ (norm_le_pi_norm (x - y) i)
    have := Real.lipschitzWith_sin.norm_sub_le (x i) (y i)
    simpa using this
  have hφ : IsFlowLine (fun (x : Fin 1 → ℝ) (_ : ℝ) i => Real.sin (x i)) fun _ _ => 0 := by
    intro t
    have : (fun i : Fin 1 => Real.sin ((fun _ _ => 0 : ℝ → Fin 1 → ℝ) t i)) = 0 := by ext i; simp
    show HasDerivAt _ (fun i : Fin 1 => Real.sin ((fun _ _ => 0 : ℝ → Fin 1 → ℝ) t i)) t
    rw [this]
    exact hasDerivAt_const t _
  obtain ⟨C, h₀, h0, H⟩ := rosenbrock4_controller_reliable (a := 0) (b := 1) hF zero_le_one hlip hφ vectorSolve_regular
    (sys := (fun x _ => pure (fun i => Real.sin (x i)) : Sys ℝ (Fin 1 → ℝ) Unit)) (fun x t w => ⟨w, rfl⟩)
    (jac := fun x _ => pure ((fderiv ℝ (fun (x : Fin 1 → ℝ) i => Real.sin (x i)) x : (Fin 1 → ℝ) →ₗ[ℝ] (Fin 1 → ℝ)), 0)) (fun x t w => ⟨w, rfl⟩)
    (m := ∑ k ∈ range 4, ‖iteratedFDeriv ℝ k (fun (x : Fin 1 → ℝ) i => Real.sin (x i)) fun _ => 0‖)
    (fun t _ k hk => single_le_sum (f := fun k => ‖iteratedFDeriv ℝ k (fun (x : Fin 1 → ℝ) i => Real.sin (x i)) fun _ => 0‖)
      (fun i _ => norm_nonneg _) (mem_range.2 (by omega))) 1
  refine ⟨C, h₀, h0, fun atol ha hC => ?_⟩
  have h1 := (H atol 0 h₀ 0 (1 / 10) (fun _ => 1) ⟨fun _ => 0, fun _ => 0, fun _ => true, fun _ => 0, ()⟩ () [] ha le_rfl (.inl rfl)
    ((pi_norm_le_iff_of_nonneg zero_le_one).2 fun i => by simp) (by norm_num) (by norm_num)
    (.inl ⟨by norm_num, h0⟩) (abs_of_pos h0).le).1 0 1 le_rfl zero_le_one (by norm_num) (by rw [not_beyond_iff]; unfold dirSign; norm_num)
  rcases h1 with ⟨r, w', l', e, -, -, -, ht⟩ | ⟨_, _, -, -, hlt⟩
  · refine ⟨r, w', l', by simpa using e, ?_⟩
    exact sub_eq_zero.1 (abs_nonpos_iff.1 ht)
  · exact absurd hlt (not_lt.2 hC)

end Verif
