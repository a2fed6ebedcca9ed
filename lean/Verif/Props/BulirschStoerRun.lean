import Verif.Lemmas.BsTryMem

/-! # C94: integrations with `bulirsch_stoer` -/

namespace Verif
open Finset Relation Asymptotics Filter Topology

variable {W U : Type} {d : ℕ}

theorem extrapolated_order {V : Type} [NormedAddCommGroup V] [NormedSpace ℝ V] [CompleteSpace V] {f : V → ℝ → V} (hf : GoodRhs f 18) {φ : ℝ → V}
    (hφ : IsFlowLine f φ) {k : ℕ} (hk1 : 1 ≤ k) (hk8 : k ≤ 8) (t : ℝ) : LocalOrder 4 (extrapolated f k k (φ t) t) t φ := by
  have h := neville_gragg_order (d := k) (k := k) le_rfl (hf.smoothAt (p := 2 * k + 2) (by omega) _ _) (hφ.isSolution t)
  refine IsBigO.trans h ?_
  rcases eq_or_lt_of_le (show 4 + 1 ≤ 2 * k + 2 + 1 by omega) with e | e
  · rw [← e]; exact isBigO_refl _ _
  · exact (isLittleO_pow_pow e).isBigO

/-- the growth of the states and the size of the error estimates, for all stages -/
theorem extrapolated_growth {V : Type} [NormedAddCommGroup V] [NormedSpace ℝ V] {f : V → ℝ → V} {n : ℕ} (hf : GoodRhs f n) (a b B : ℝ) :
    ∃ C, 0 ≤ C ∧ ∀ k ≤ 8, ∀ x, ∀ t ∈ Set.Icc a b, ∀ h, |h| ≤ B → ‖extrapolated f k k x t h - x‖ ≤ C * |h| * (1 + ‖x‖) ∧
      ‖extrapolated f k k x t h - extrapolated f (k - 1) k x t h‖ ≤ C * |h| * (1 + ‖x‖) := by
  choose c hc H using fun k => growth_sub hf (extrapolated_isRk f k k) (extrapolated_isRk f (k - 1) k) a b B
  refine ⟨∑ k ∈ range 9, c k, sum_nonneg fun k _ => hc k, fun k hk x t ht h hh => ?_⟩
  have h1 : c k ≤ ∑ k ∈ range 9, c k := single_le_sum (f := c) (fun k _ => hc k) (mem_range.2 (by omega))
  have h2 : c k * |h| * (1 + ‖x‖) ≤ (∑ k ∈ range 9, c k) * |h| * (1 + ‖x‖) :=
    mul_le_mul_of_nonneg_right (mul_le_mul_of_nonneg_right h1 (abs_nonneg _)) (by positivity)
  exact ⟨(H k x t ht h hh).1.trans h2, (H k x t ht h hh).2.trans h2⟩

set_option maxHeartbeats 800000 in
/-- the tries of an integration -/
theorem bs_tryMem (resizer : U → Bool × U) {sys : Sys ℝ (Fin d → ℝ) W} {f : (Fin d → ℝ) → ℝ → Fin d → ℝ} (hs : Evaluates sys f) {τ : Tolerances}
    (hτ : τ.Valid) {maxDt L : ℝ} {σ t0 T C B M : ℝ} (hσ : σ = 1 ∨ σ = -1) (hL : maxDt = 0 ∧ B < L ∨ maxDt = σ * L ∧ 0 < L) (x0 : Fin d → ℝ) (hC : 0 ≤ C)
    (hgrow : ∀ k ≤ 8, ∀ x t h, 0 ≤ σ * (t - t0) → σ * t ≤ T → |h| ≤ B → ‖extrapolated f k k x t h - x‖ ≤ C * |h| * (1 + ‖x‖) ∧
      ‖extrapolated f k k x t h - extrapolated f (k - 1) k x t h‖ ≤ C * |h| * (1 + ‖x‖))
    (hB : T - σ * t0 ≤ B) (hM : Real.exp (C * B) * (1 + ‖x0‖) ≤ M) :
    TryMem (bsObject resizer fun resized x t dt => bsTry1 ⟨realOps 0, τ.checker d, maxDt⟩ resized sys x t dt)
      (fun o x t => o.1.ctl.Valid ∧ 0 ≤ σ * (t - t0) ∧ σ * t ≤ T ∧ 1 + ‖x‖ ≤ Real.exp (C * (σ * (t - t0))) * (1 + ‖x0‖)) (fun _ _ => True)
      (fun x t h y => ∃ k, 1 ≤ k ∧ k ≤ 8 ∧ y = extrapolated f k k x t h ∧ bsStageError ⟨realOps 0, τ.checker d, maxDt⟩ f x t h k < 1)
      (fun _ t h => σ * (t + h) ≤ T) (23 / 25) σ T (τ.absolute / (5 * (C * M + 1))) L := by
  have hlim : LimitIs σ maxDt L := hL.imp (fun h => h.1) id
  set P : BsParams ℝ (Fin d → ℝ) := ⟨realOps 0, τ.checker d, maxDt⟩ with hP
  refine ⟨by norm_num, ?_, ?_⟩
  · rintro ⟨o, u⟩ x t dt w l ⟨hv, ht0, htT, hx⟩ hdt hT hdL
    have habs : |dt| = σ * dt := abs_of_sign hσ hdt.le
    have hdtB : |dt| ≤ B := by rw [habs]; rw [mul_add] at hT; rw [mul_sub] at ht0; linarith
    have hxM : 1 + ‖x‖ ≤ M := by
      refine hx.trans ((mul_le_mul_of_nonneg_right (Real.exp_le_exp.2 (mul_le_mul_of_nonneg_left ?_ hC)) (by positivity)).trans hM)
      rw [mul_sub]; linarith
    have hM0 : 0 ≤ M := le_trans (by positivity) hxM
    have hsmall : σ * dt ≤ τ.absolute / (5 * (C * M + 1)) → ∀ k ≤ 8, bsStageError P f x t dt k ≤ 1 / 5 := by
      intro h k hk
      refine (checker_le hτ _ _ _ _).trans ?_
      rw [div_le_iff₀ hτ.absolute]
      rw [le_div_iff₀ (by positivity)] at h
      have h1 : C * |dt| * (1 + ‖x‖) ≤ C * |dt| * M := mul_le_mul_of_nonneg_left hxM (by positivity)
      have h2 := (hgrow k hk x t dt ht0 htT hdtB).2
      rw [habs] at h1 h2
      linarith
    obtain ⟨r, s', e, hv', hcase⟩ := bsTry1_evaluates P (resizer u).1 hs 0 t dt ⟨o.ctl, (o.heap.set (.user 0) x).withWorld w⟩ hv
    have hx' : ((o.heap.set (.user 0) x).withWorld w).state (.user 0) = x := by simp [Heap.withWorld, Heap.set]
    dsimp only at hcase
    rw [hx'] at hcase
    rcases hcase with ⟨h, -⟩ | ⟨-, c, b, k, hk1, hk8, rfl, hst, hend⟩
    · exact absurd hdL (not_le.2 ((bsTooLong_iff (P := P) rfl hσ hlim hdt).1 h).2)
    obtain ⟨q, hq, hq20, hqrej, hqsmall⟩ := LoopEnd.newH_real (PE := fun e => ∃ j, 1 ≤ j ∧ j ≤ 8 ∧ e = bsStageError P f x t dt j)
      (by rintro e ⟨j, -, -, rfl⟩; exact checker_nonneg τ _ _ _ _) ⟨k, hk1, hk8, rfl⟩ hend
    obtain ⟨hlo, hhi⟩ := bsResult_dt (P := P) (t := t) (c := c) rfl hσ hlim hdt hdL hq (by linarith)
    have hmin : 1 / 20 ≤ min 1 q := le_min (by norm_num) hq20
    have h20 : σ * dt / 20 ≤ σ * (bsResult P c b t dt).dt := by
      refine le_trans (le_min ?_ ?_) hlo
      · have := mul_le_mul_of_nonneg_left hmin hdt.le
        linarith
      · linarith
    have hrun : (bsObject resizer fun resized x t dt => bsTry1 P resized sys x t dt).tryStep (o, u) x t dt (w, l) =
        .ok ⟨(s', (resizer u).2), s'.heap.state (.user 0), (bsResult P c b t dt).t, (bsResult P c b t dt).dt, (bsResult P c b t dt).success⟩ (s'.heap.world, l) := by
      simp only [bsObject]
      rw [e]
    refine ⟨_, _, hrun, ?_, h20, ?_, ?_, ?_, ?_⟩ <;> dsimp only
    · linarith
    · cases hb : b.reject with
      | true =>
        rw [hb, if_pos rfl] at hst
        rw [hst]
        have : (bsResult P c b t dt).t = t := by show (if b.reject then t else t + dt) = t; rw [hb]; rfl
        rw [this]
        exact ⟨hv', ht0, htT, hx⟩
      | false =>
        rw [hb, if_neg (by simp)] at hst
        rw [hst]
        have : (bsResult P c b t dt).t = t + dt := by show (if b.reject then t else t + dt) = t + dt; rw [hb]; rfl
        rw [this]
        have hnew : σ * (t + dt - t0) = σ * (t - t0) + |dt| := by rw [habs]; ring
        refine ⟨hv', by rw [hnew]; positivity, hT, ?_⟩
        have hg1 := (hgrow k hk8 x t dt ht0 htT hdtB).1
        rw [hnew, mul_add C, Real.exp_add]
        have h2 : ‖extrapolated f k k x t dt‖ ≤ ‖x‖ + ‖extrapolated f k k x t dt - x‖ := by
          have := norm_add_le x (extrapolated f k k x t dt - x)
          rwa [add_sub_cancel] at this
        have h3 : C * |dt| + 1 ≤ Real.exp (C * |dt|) := Real.add_one_le_exp _
        have h4 : 1 + ‖extrapolated f k k x t dt‖ ≤ Real.exp (C * |dt|) * (1 + ‖x‖) := by
          have : (C * |dt| + 1) * (1 + ‖x‖) ≤ Real.exp (C * |dt|) * (1 + ‖x‖) := mul_le_mul_of_nonneg_right h3 (by positivity)
          linarith
        refine h4.trans ((mul_le_mul_of_nonneg_left hx (Real.exp_pos _).le).trans (le_of_eq ?_))
        ring
    · intro hsucc
      have hb : b.reject = false := by
        have : (!b.reject) = true := hsucc
        simpa using this
      rw [hb, if_neg (by simp)] at hst
      refine ⟨⟨k, hk1, hk8, hst, ?_⟩, ?_, hT, trivial⟩
      · have := (hend.acc hb).1
        have h1 : decide (bsStageError P f x t dt k < ((1 : ℤ) : ℝ)) = true := this
        simpa using h1
      · show (if b.reject then t else t + dt) = t + dt
        rw [hb]; rfl
    · intro hfail
      have hb : b.reject = true := by
        have : (!b.reject) = false := hfail
        simpa using this
      rw [hb, if_pos rfl] at hst
      have hq1 := hqrej hb
      refine ⟨hst, ?_, ?_, ?_⟩
      · show (if b.reject then t else t + dt) = t
        rw [hb]; rfl
      · refine (hhi (by linarith)).trans ?_
        have := mul_le_mul_of_nonneg_left hq1 hdt.le
        linarith
      · by_contra hle
        have h5 := hsmall (not_lt.1 hle)
        have := (hqsmall (by rintro e ⟨j, -, hj, rfl⟩; exact h5 j hj)).2
        rw [hb] at this
        cases this
    · intro _ hle
      have h5 := hsmall hle
      have h6 := (hqsmall (by rintro e ⟨j, -, hj, rfl⟩; exact h5 j hj)).1
      refine le_trans (le_min ?_ hdL) hlo
      rw [min_eq_left h6, mul_one]
  · rintro ⟨o, u⟩ x t dt w l ⟨hv, ht0, htT, hx⟩ hdt hT hdL
    have h0 : maxDt = σ * L ∧ 0 < L := by
      rcases hL with ⟨-, h⟩ | h
      · exfalso
        rw [mul_add] at hT; rw [mul_sub] at ht0; linarith
      · exact h
    have hm : maxDt ≠ 0 := by rw [h0.1]; rcases hσ with h | h <;> rw [h] <;> intro h' <;> linarith [h0.2]
    have hσm : σ * maxDt = L := by rw [h0.1]; rcases hσ with h | h <;> rw [h] <;> ring
    obtain ⟨r, s', e, hv', hcase⟩ := bsTry1_evaluates P (resizer u).1 hs 0 t dt ⟨o.ctl, (o.heap.set (.user 0) x).withWorld w⟩ hv
    have hx' : ((o.heap.set (.user 0) x).withWorld w).state (.user 0) = x := by simp [Heap.withWorld, Heap.set]
    dsimp only at hcase
    rw [hx'] at hcase
    rcases hcase with ⟨-, rfl, hst⟩ | ⟨h, -⟩
    swap
    · rw [(bsTooLong_iff (P := P) rfl hσ hlim hdt).2 ⟨hm, hdL⟩] at h
      cases h
    refine ⟨(s', (resizer u).2), maxDt, s'.heap.world, ?_, hσm, hv', ht0, htT, hx⟩
    simp only [bsObject]
    rw [e]
    simp only [hst]
    rfl

set_option maxHeartbeats 800000 in
/-- **C94**: the integrate functions with `bulirsch_stoer`, for a smooth and Lipschitz continuous right hand side: for every time interval there is a
constant `C`, so that all calls within this interval, with any first step size, tolerances, limit of the step size and history of the stepper,
return, unless the absolute tolerance is below `C * 0.92^498`; all steps between observations of `integrate_adaptive` are steps of
`extrapolation_stepper` within the tolerances, and all observed states differ from the solution by at most `C * ( |x0 - φ t0| + H^4 )`. -/
theorem bulirsch_stoer_reliable (resizer : U → Bool × U) {sys : Sys ℝ (Fin d → ℝ) W} {f : (Fin d → ℝ) → ℝ → Fin d → ℝ} (hs : Evaluates sys f)
    (hf : GoodRhs f 18) {φ : ℝ → Fin d → ℝ} (hφ : IsFlowLine f φ) (a b ρ : ℝ) :
    ∃ C, ∀ (τ : Tolerances) (maxDt t0 dt : ℝ) (x0 : Fin d → ℝ) (q : BsState ℝ (Fin d → ℝ) W × U) (w : W) (l : Log (Fin d → ℝ) ℝ),
      τ.Valid → q.1.ctl.Valid → ‖x0‖ ≤ ρ → t0 ∈ Set.Icc a b → dt ≠ 0 → maxDt = 0 ∨ SameDir dt maxDt →
      ReliableCalls (bsObject resizer fun resized x t dt => bsTry1 ⟨realOps 0, τ.checker d, maxDt⟩ resized sys x t dt) a b maxDt t0 dt x0 q w l
        (BsWithinTolerance τ sys f) φ (fun H => C * (‖x0 - φ t0‖ + H ^ 4)) (τ.absolute < C * (23 / 25) ^ 498) := by
  set B := b - a + 1 with hBdef
  obtain ⟨C, hC, hgrow⟩ := extrapolated_growth hf (a - 1) (b + 1) B
  obtain ⟨D, hD, hglob⟩ := global_error_family (p := 4) (hf.mono (by norm_num)) (Icc 1 8) (Φ := fun k => extrapolated f k k)
    (fun k _ => (extrapolated_isRk f k k).regular (hf.mono (by norm_num))) hφ
    (fun k hk t => extrapolated_order hf hφ (mem_Icc.1 hk).1 (mem_Icc.1 hk).2 t) (a - 1) (b + 1) B B
  set N := Real.exp (C * B) * (1 + |ρ|) with hNdef
  have hN0 : 0 < N := by positivity
  set K := max D (5 * B * (C * N + 1)) with hK
  refine ⟨K, ?_⟩
  intro τ maxDt t0 dt x0 o w l hτ hfr hx0 ht0 hdt hmax
  set σ := dirSign dt with hσdef
  have hσ : σ = 1 ∨ σ = -1 := by rw [hσdef]; unfold dirSign; split <;> simp
  have hpos0 : 0 < σ * dt := (sameDir_iff hdt).1 (SameDir.refl hdt)
  set T := max (σ * a) (σ * b) + 1 with hTdef
  have hab : a ≤ b := ht0.1.trans ht0.2
  have hB0 : 0 ≤ B := by rw [hBdef]; linarith
  have hTm : T = if σ = 1 then b + 1 else 1 - a := by
    rw [hTdef]
    rcases hσ with h | h <;> rw [h]
    · rw [if_pos rfl, one_mul, one_mul, max_eq_right hab]
    · rw [if_neg (by norm_num), neg_one_mul, neg_one_mul, max_eq_left (by linarith)]; ring
  have hin : ∀ t ∈ Set.Icc a b, σ * t + 1 ≤ T := by
    intro t ht
    rw [hTm]
    rcases hσ with h | h <;> rw [h]
    · rw [if_pos rfl]; linarith [ht.2]
    · rw [if_neg (by norm_num)]; linarith [ht.1]
  have hB1 : T - σ * t0 ≤ B := by
    rw [hTm, hBdef]
    rcases hσ with h | h <;> rw [h]
    · rw [if_pos rfl]; linarith [ht0.1]
    · rw [if_neg (by norm_num)]; linarith [ht0.2]
  have hIcc : ∀ t, 0 ≤ σ * (t - t0) → σ * t ≤ T → t ∈ Set.Icc (a - 1) (b + 1) := by
    intro t h1 h2
    rw [hTm] at h2
    rcases hσ with h | h <;> rw [h] at h1 h2
    · rw [if_pos rfl] at h2; constructor <;> linarith [ht0.1]
    · rw [if_neg (by norm_num)] at h2; constructor <;> linarith [ht0.2]
  have hT0 : σ * t0 ≤ T := by linarith [hin t0 ht0]
  have hNx : Real.exp (C * B) * (1 + ‖x0‖) ≤ N :=
    mul_le_mul_of_nonneg_left (by linarith [hx0.trans (le_abs_self ρ)]) (Real.exp_pos _).le
  -- the longest step
  set L := if maxDt = 0 then B + 1 else σ * maxDt with hLdef
  have hL : maxDt = 0 ∧ B < L ∨ maxDt = σ * L ∧ 0 < L := by
    rw [hLdef]
    by_cases h0 : maxDt = 0
    · rw [if_pos h0]; exact .inl ⟨h0, by linarith⟩
    · rw [if_neg h0]
      refine .inr ⟨?_, (sameDir_iff hdt).1 (hmax.resolve_left h0)⟩
      rcases hσ with h | h <;> rw [h] <;> ring
  have hL0 : 0 < L := by
    rcases hL with h | h
    · linarith [h.2]
    · exact h.2
  have hLm : maxDt ≠ 0 → L = |maxDt| := by
    intro h0
    rw [hLdef, if_neg h0, abs_of_sign hσ ((sameDir_iff hdt).1 (hmax.resolve_left h0)).le]
  have htf := bs_tryMem resizer hs hτ (T := T) hσ hL x0 hC (t0 := t0) (B := B) (M := N)
    (fun k hk x t h h1 h2 h3 => hgrow k hk x t (hIcc t h1 h2) h h3) hB1 hNx
  set hs' := τ.absolute / (5 * (C * N + 1)) with hhs
  have hs0 : 0 < hs' := by rw [hhs]; have := hτ.absolute; positivity
  refine reliable_of_tryMem ht0 hdt hs0 hL0 hLm hin htf ⟨hfr, by simp, hT0, by simp⟩ (fun q' x t h => ⟨hfr, h.2⟩) ?_ ?_ ?_
  · -- when it throws
    intro X hX hh
    have hz : (0 : ℝ) < (23 / 25) ^ 498 := by positivity
    generalize ((23 : ℝ) / 25) ^ 498 = z at hh hz ⊢
    rw [hhs, div_lt_iff₀ (by positivity)] at hh
    have h4 : z * X * (5 * (C * N + 1)) ≤ z * B * (5 * (C * N + 1)) :=
      mul_le_mul_of_nonneg_right (mul_le_mul_of_nonneg_left hX hz.le) (by positivity)
    have h5 : 5 * B * (C * N + 1) * z ≤ K * z := mul_le_mul_of_nonneg_right (le_max_right _ _) hz.le
    linarith
  · rintro u v ⟨-, -, ⟨k, hk1, hk8, hy, he⟩, -⟩
    refine ⟨k, _, hk1, hk8, fun w => ?_, he⟩
    rw [hy]
    exact extrapolationErrStep_value hs k _ _ _ w
  · -- what accepted steps lead to
    intro H hH0 v hv
    obtain ⟨n, u, hu0, hun, hu⟩ := reflTransGen_sequence hv
    have hmono : ∀ i, i ≤ n → 0 ≤ σ * ((u i).2 - t0) ∧ σ * (u i).2 ≤ T := by
      intro i
      induction i with
      | zero => intro _; rw [hu0]; exact ⟨by simp, hT0⟩
      | succ i ih =>
        intro hi
        have h1 := hu i (by omega)
        have h2 := ih (by omega)
        refine ⟨?_, ?_⟩
        · have := h1.1
          have e : σ * ((u (i + 1)).2 - t0) = σ * ((u (i + 1)).2 - (u i).2) + σ * ((u i).2 - t0) := by ring
          rw [e]; linarith
        · have := h1.2.2.2
          dsimp only at this
          rwa [add_sub_cancel] at this
    have habs : ∀ i, i < n → |(u (i + 1)).2 - (u i).2| = σ * (u (i + 1)).2 - σ * (u i).2 := by
      intro i hi
      rw [abs_of_sign hσ (hu i hi).1.le, mul_sub]
    have hsum : ∀ m, m ≤ n → ∑ i ∈ range m, |(u (i + 1)).2 - (u i).2| = σ * (u m).2 - σ * t0 := by
      intro m
      induction m with
      | zero => intro _; rw [hu0]; simp
      | succ m ih => intro hm; rw [sum_range_succ, ih (by omega), habs m (by omega)]; ring
    have hHB : ∀ i, i < n → |(u (i + 1)).2 - (u i).2| ≤ min H B := by
      intro i hi
      refine le_min ?_ ?_
      · rw [abs_of_sign hσ (hu i hi).1.le]; exact (hu i hi).2.1.trans (min_le_left _ _)
      rw [habs i hi]
      have h1 := (hmono (i + 1) (by omega)).2
      have h2 := (hmono i (by omega)).1
      rw [mul_sub] at h2
      linarith
    have key := hglob n (fun i => (u i).2) (fun i => (u i).1) (min H B) (min_le_right _ _)
      (fun i hi => ⟨hIcc _ (hmono i hi.le).1 (hmono i hi.le).2, hHB i hi, by
        obtain ⟨k, hk1, hk8, hy, -⟩ := (hu i hi).2.2.1
        exact ⟨k, mem_Icc.2 ⟨hk1, hk8⟩, hy⟩⟩)
      (by rw [hsum n le_rfl]; have := (hmono n le_rfl).2; linarith) (le_min hH0 hB0)
    rw [hu0, hun] at key
    refine key.trans (mul_le_mul (le_max_left _ _) (add_le_add le_rfl (pow_le_pow_left₀ (le_min hH0 hB0) (min_le_left _ _) 4)) ?_ ?_)
    · have := le_min hH0 hB0; positivity
    · exact hD.trans (le_max_left _ _)

/-- The hypotheses are met by the harmonic oscillator and a new stepper, with any tolerances and either direction. -/
example : ∃ C : ℝ, ∀ (τ : Tolerances) (dt : ℝ) (dtLast : ℝ), τ.Valid → C * (23 / 25) ^ 498 ≤ τ.absolute → 0 < dt → ∃ r w' l',
    integrateAdaptiveControlled (TimeArith.exact ℝ 0) (bsObject (fun n : ℕ => (n == 0, n + 1)) fun resized x t dt =>
      bsTry1 ⟨realOps 0, τ.checker 2, 0⟩ resized (countSys oscillator) x t dt) recordObserver
      (⟨BsCtl.construct dtLast, ⟨fun _ => 0, fun _ => 0, fun _ => true, fun _ => 0, 0⟩⟩, 0) (fun i => if i = 0 then 0 else 1) 0 10 dt (0, []) = .ok r (w', l') ∧ r.t = 10 := by
  obtain ⟨C, H⟩ := bulirsch_stoer_reliable (fun n : ℕ => (n == 0, n + 1)) oscillator_evaluates (oscillator_good 18) oscillator_solution 0 10 1
  refine ⟨C, fun τ dt dtLast hτ hC hdt => ?_⟩
  have h1 := (H τ 0 0 dt (fun i => if i = 0 then 0 else 1) (⟨BsCtl.construct dtLast, ⟨fun _ => 0, fun _ => 0, fun _ => true, fun _ => 0, 0⟩⟩, 0) 0 [] hτ
    (BsCtl.reset_valid ⟨0, true, false, dtLast⟩) ((pi_norm_le_iff_of_nonneg zero_le_one).2 fun i => by split <;> simp) (by norm_num) hdt.ne' (.inl rfl)).1 0 10 le_rfl
    zero_le_one (by norm_num) (by rw [not_beyond_iff]; unfold dirSign; rw [if_pos hdt]; norm_num)
  rcases h1 with ⟨r, w', l', e, -, -, -, ht⟩ | ⟨_, _, -, -, hlt⟩
  · exact ⟨r, w', l', by simpa using e, sub_eq_zero.1 (abs_nonpos_iff.1 ht)⟩
  · exact absurd hlt (not_lt.2 hC)

end Verif
