import Verif.Spec.ControlledRun
import Verif.Lemmas.ControlledGridRun
import Verif.Lemmas.RkBounded
import Verif.Props.StepAdjust

/-! # From one try of a controlled stepper to a whole integration -/

namespace Verif
open Finset Relation

variable {W Q : Type} {d : ℕ}

theorem relErrorLoop_le {epsAbs epsRel aX aDxdt M : ℝ} (h0 : 0 < epsAbs) (h1 : 0 ≤ epsRel) (h2 : 0 ≤ aX) (h3 : 0 ≤ aDxdt) (hM : 0 ≤ M) :
    ∀ es xs ks : List ℝ, (∀ e ∈ es, |e| ≤ M) → ∀ v ∈ relErrorLoop (realOps 0) epsAbs epsRel aX aDxdt es xs ks, |v| ≤ M / epsAbs := by
  intro es
  induction es with
  | nil => intro xs ks _ v hv; simp [relErrorLoop] at hv
  | cons e es ih =>
    intro xs ks he v hv
    cases xs with
    | nil => simp [relErrorLoop] at hv
    | cons x xs =>
      cases ks with
      | nil => simp [relErrorLoop] at hv
      | cons k ks =>
        rw [relErrorLoop, List.mem_cons] at hv
        rcases hv with rfl | hv
        · have hden : epsAbs ≤ epsAbs + epsRel * (aX * |x| + aDxdt * |k|) := le_add_of_nonneg_right (by positivity)
          show |(|e| / (epsAbs + epsRel * (aX * |x| + aDxdt * |k|)))| ≤ M / epsAbs
          rw [abs_of_nonneg (by positivity)]
          exact div_le_div₀ hM (he e (by simp)) h0 hden
        · exact ih xs ks (fun e' h' => he e' (by simp [h'])) v hv

theorem normInf_le {B : ℝ} : ∀ (vs : List ℝ) (i : ℝ), i ≤ B → (∀ v ∈ vs, |v| ≤ B) → normInf (realOps 0) i vs ≤ B := by
  intro vs
  induction vs with
  | nil => intro i hi _; exact hi
  | cons v vs ih =>
    intro i hi h
    rw [normInf]
    refine ih _ ?_ fun u hu => h u (by simp [hu])
    unfold NumOps.max
    split
    · exact h v (by simp)
    · exact hi

/-- The weighted error is at most the norm of the error divided by the absolute tolerance. -/
theorem checker_le {τ : Tolerances} (hτ : τ.Valid) (x k e : Fin d → ℝ) (dt : ℝ) : ((τ.checker d).error x k e dt).2 ≤ ‖e‖ / τ.absolute := by
  refine normInf_le _ _ ?_ (relErrorLoop_le hτ.absolute hτ.relative hτ.aX (mul_nonneg hτ.aDxdt (abs_nonneg dt)) (norm_nonneg e) _ _ _ ?_)
  · show ((0 : ℤ) : ℝ) ≤ _
    rw [Int.cast_zero]
    exact div_nonneg (norm_nonneg _) hτ.absolute.le
  · intro v hv
    obtain ⟨i, rfl⟩ := List.mem_ofFn.1 hv
    exact norm_le_pi_norm e i

theorem one_le_incFactor_of_small {e : ℝ} {p : ℕ} (hp : 1 ≤ p) (he : e ≤ (9 / 10) ^ p) : 1 ≤ incFactor e p := by
  by_cases hlt : ¬ e < 1 / 2
  · rw [incFactor, if_neg hlt]
  rw [not_not] at hlt
  rw [incFactor, if_pos hlt]
  have hp0 : (0 : ℝ) < p := by exact_mod_cast hp
  have hpc : (((p : ℕ) : ℤ) : ℝ) = (p : ℝ) := by norm_cast
  rw [hpc]
  have h5 : (0 : ℝ) < (5 : ℝ) ^ (-(p : ℝ)) := Real.rpow_pos_of_pos (by norm_num) _
  have hm : max ((5 : ℝ) ^ (-(p : ℝ))) e ≤ (9 / 10 : ℝ) ^ (p : ℝ) := by
    rw [Real.rpow_natCast]
    refine max_le ?_ he
    rw [Real.rpow_neg (by norm_num), Real.rpow_natCast, ← inv_pow]
    exact pow_le_pow_left₀ (by norm_num) (by norm_num) p
  have h1 : ((9 / 10 : ℝ) ^ (p : ℝ)) ^ ((-1 : ℝ) / p) ≤ (max ((5 : ℝ) ^ (-(p : ℝ))) e) ^ ((-1 : ℝ) / p) :=
    Real.rpow_le_rpow_of_nonpos (lt_of_lt_of_le h5 (le_max_left _ _)) hm (div_nonpos_of_nonpos_of_nonneg (by norm_num) hp0.le)
  have h2 : ((9 / 10 : ℝ) ^ (p : ℝ)) ^ ((-1 : ℝ) / p) = 10 / 9 := by
    rw [← Real.rpow_mul (by norm_num), mul_div_cancel₀ _ hp0.ne', Real.rpow_neg_one]
    norm_num
  linarith

/-- the limit of the step size is `H`, in the direction `σ`, or there is none -/
def LimitIs (σ maxDt H : ℝ) : Prop := maxDt = 0 ∨ maxDt = σ * H ∧ 0 < H

theorem sameDir_of_sign {σ a b : ℝ} (hσ : σ = 1 ∨ σ = -1) (ha : 0 < σ * a) (hb : 0 < σ * b) : SameDir a b := by
  rcases hσ with h | h <;> rw [h] at ha hb
  · exact .inl ⟨by linarith, by linarith⟩
  · exact .inr ⟨by linarith, by linarith⟩

theorem abs_of_sign {σ a : ℝ} (hσ : σ = 1 ∨ σ = -1) (ha : 0 ≤ σ * a) : |a| = σ * a := by
  rcases hσ with h | h <;> rw [h] at ha ⊢
  · rw [one_mul] at ha ⊢; exact abs_of_nonneg ha
  · rw [neg_one_mul] at ha ⊢; exact abs_of_nonpos (by linarith)

theorem limitStep_sign {σ maxDt H y : ℝ} (hσ : σ = 1 ∨ σ = -1) (hlim : LimitIs σ maxDt H) (hy : 0 < σ * y) :
    σ * limitStep maxDt y = if maxDt = 0 then σ * y else min (σ * y) H := by
  unfold limitStep
  by_cases h0 : maxDt = 0
  · rw [if_pos h0, if_pos h0]
  · rw [if_neg h0, if_neg h0]
    obtain ⟨rfl, hH⟩ := hlim.resolve_left h0
    rcases hσ with h | h <;> rw [h] at hy ⊢
    · rw [one_mul] at hy; simp [hy]
    · rw [if_neg (by linarith), neg_one_mul, neg_one_mul, neg_one_mul, ← min_neg_neg, neg_neg]

theorem upTo_check {σ maxDt H h : ℝ} (hσ : σ = 1 ∨ σ = -1) (hlim : LimitIs σ maxDt H) (hh : 0 < σ * h) (τ : Tolerances) (p q : ℕ) :
    (τ.controlUpTo d p q maxDt).adjuster.checkStepSizeLimit h = true ↔ (maxDt ≠ 0 → σ * h ≤ H) := by
  by_cases h0 : maxDt = 0
  · subst h0
    simp [Tolerances.controlUpTo, defaultAdjuster, checkStepSizeLimit, realOps, lit]
  · obtain ⟨rfl, hH⟩ := hlim.resolve_left h0
    have hm : 0 < σ * (σ * H) := by rcases hσ with h | h <;> rw [h] <;> linarith
    have := check_limit_iff (eps := 0) (sameDir_of_sign hσ hm hh)
    refine this.trans ?_
    rw [abs_of_sign hσ hh.le, abs_of_sign hσ hm.le, add_zero]
    have : σ * (σ * H) = H := by rcases hσ with h | h <;> rw [h] <;> ring
    rw [this]
    exact ⟨fun h _ => h, fun h => h h0⟩

/-- One try: the step `Φ` with error estimate `E` is made, tested and followed by the step size of the default adjuster, unless it is too long. -/
def TryVal (p q : ℕ) (f : (Fin d → ℝ) → ℝ → Fin d → ℝ) (τ : Tolerances) (maxDt : ℝ)
    (st : ControlledStepper Q (W × Log (Fin d → ℝ) ℝ) (Fin d → ℝ) ℝ)
    (ready : Q → (Fin d → ℝ) → ℝ → Prop) (Φ E : (Fin d → ℝ) → ℝ → ℝ → Fin d → ℝ) : Prop :=
  ∀ o x t dt w l, ready o x t → ∃ o' w',
    let e := ((τ.checker d).error x (f x t) (E x t dt) dt).2
    let check := (τ.controlUpTo d p q maxDt).adjuster.checkStepSizeLimit dt
    (check = false ∧ st.tryStep o x t dt (w, l) = .ok ⟨o', x, t, maxDt, false⟩ (w', l) ∧ ready o' x t) ∨
    (check = true ∧ 1 < e ∧ st.tryStep o x t dt (w, l) = .ok ⟨o', x, t, limitStep maxDt (dt * decFactor e q), false⟩ (w', l) ∧ ready o' x t) ∨
    (check = true ∧ e ≤ 1 ∧ st.tryStep o x t dt (w, l) =
      .ok ⟨o', Φ x t dt, t + dt, if e < 1 / 2 then limitStep maxDt (dt * incFactor e p) else dt, true⟩ (w', l) ∧ ready o' (Φ x t dt) (t + dt))

theorem incFactor_eq_one {e : ℝ} {p : ℤ} (h : ¬ e < 1 / 2) : incFactor e p = 1 := by
  unfold incFactor
  rw [if_neg h]

theorem tryFn_of_tryVal {p q : ℕ} (hp : 1 ≤ p) (hq : 2 ≤ q) {f : (Fin d → ℝ) → ℝ → Fin d → ℝ} {τ : Tolerances} (hτ : τ.Valid)
    {maxDt L : ℝ}
    {st : ControlledStepper Q (W × Log (Fin d → ℝ) ℝ) (Fin d → ℝ) ℝ} {ready : Q → (Fin d → ℝ) → ℝ → Prop} {Φ E : (Fin d → ℝ) → ℝ → ℝ → Fin d → ℝ}
    (hst : TryVal p q f τ maxDt st ready Φ E) {σ t0 T C B M : ℝ} (hσ : σ = 1 ∨ σ = -1) (hL : maxDt = 0 ∧ B < L ∨ maxDt = σ * L ∧ 0 < L)
    (x0 : Fin d → ℝ) (hC : 0 ≤ C)
    (hgrow : ∀ x t h, 0 ≤ σ * (t - t0) → σ * t ≤ T → |h| ≤ B → ‖Φ x t h - x‖ ≤ C * |h| * (1 + ‖x‖) ∧ ‖E x t h‖ ≤ C * |h| * (1 + ‖x‖))
    (hB : T - σ * t0 ≤ B) (hM : Real.exp (C * B) * (1 + ‖x0‖) ≤ M) :
    TryFn st (fun o x t => ready o x t ∧ 0 ≤ σ * (t - t0) ∧ σ * t ≤ T ∧ 1 + ‖x‖ ≤ Real.exp (C * (σ * (t - t0))) * (1 + ‖x0‖)) Φ
      (fun x t h => σ * (t + h) ≤ T ∧ ((τ.checker d).error x (f x t) (E x t h) h).2 ≤ 1) σ T ((9 / 10) ^ p * τ.absolute / (C * M + 1)) L := by
  have hlim : LimitIs σ maxDt L := hL.imp (fun h => h.1) id
  constructor
  · intro o x t dt w l ⟨hr, ht0, htT, hx⟩ hdt hT hdL
    have habs : |dt| = σ * dt := abs_of_sign hσ hdt.le
    have hdtB : |dt| ≤ B := by rw [habs]; rw [mul_add] at hT; rw [mul_sub] at ht0; linarith
    obtain ⟨hg1, hg2⟩ := hgrow x t dt ht0 htT hdtB
    have hxM : 1 + ‖x‖ ≤ M := by
      refine hx.trans ((mul_le_mul_of_nonneg_right (Real.exp_le_exp.2 (mul_le_mul_of_nonneg_left ?_ hC)) (by positivity)).trans hM)
      rw [mul_sub]; linarith
    have hM0 : 0 ≤ M := le_trans (by positivity) hxM
    have hsmall : σ * dt ≤ (9 / 10) ^ p * τ.absolute / (C * M + 1) → ((τ.checker d).error x (f x t) (E x t dt) dt).2 ≤ (9 / 10) ^ p := by
      intro h
      refine (checker_le hτ _ _ _ _).trans ?_
      rw [div_le_iff₀ hτ.absolute]
      rw [le_div_iff₀ (by positivity)] at h
      have h1 : C * |dt| * (1 + ‖x‖) ≤ C * |dt| * M := mul_le_mul_of_nonneg_left hxM (by positivity)
      rw [habs] at h1 hg2
      nlinarith
    obtain ⟨o', w', h⟩ := hst o x t dt w l hr
    dsimp only at h
    have hcheck := (upTo_check (d := d) hσ hlim hdt τ p q).2 fun _ => hdL
    rcases h with ⟨hf, -⟩ | ⟨-, he, e, hr'⟩ | ⟨-, he, e, hr'⟩
    · rw [hcheck] at hf; cases hf
    · obtain ⟨h1, h2⟩ := decFactor_bounds he (order := (q : ℤ)) (by exact_mod_cast hq)
      set F := decFactor ((τ.checker d).error x (f x t) (E x t dt) dt).2 (q : ℤ) with hF
      have hpos : 0 < σ * (dt * F) := by rw [← mul_assoc]; exact mul_pos hdt (by linarith)
      have hval : σ * limitStep maxDt (dt * F) = σ * dt * F := by
        rw [limitStep_sign hσ hlim hpos, mul_assoc]
        split
        · rfl
        · refine min_eq_left ?_
          rw [← mul_assoc]; nlinarith
      refine ⟨_, w', e, ?_, ?_, ⟨hr', ht0, htT, hx⟩, fun h => (nomatch h), fun _ => ⟨rfl, rfl, ?_, ?_⟩, fun h => ?_⟩ <;> try dsimp only
      · rw [hval, mul_assoc]; exact hpos
      · rw [hval]; nlinarith
      · rw [hval]; nlinarith
      · by_contra hle
        have := hsmall (not_lt.1 hle)
        have h9 : ((9 : ℝ) / 10) ^ p < 1 := pow_lt_one₀ (by norm_num) (by norm_num) (by omega)
        linarith
      · have := hsmall h
        have h9 : ((9 : ℝ) / 10) ^ p < 1 := pow_lt_one₀ (by norm_num) (by norm_num) (by omega)
        linarith
    · set v := ((τ.checker d).error x (f x t) (E x t dt) dt).2 with hv
      have h1 := incFactor_gt (e := v) (order := (p : ℤ)) (by exact_mod_cast hp)
      have hnew : σ * (t + dt - t0) = σ * (t - t0) + |dt| := by rw [habs]; ring
      have hpos : 0 < σ * (dt * incFactor v p) := by rw [← mul_assoc]; exact mul_pos hdt (by linarith)
      have hval : min (σ * dt * incFactor v p) L ≤ σ * (if v < 1 / 2 then limitStep maxDt (dt * incFactor v p) else dt) := by
        split
        · rw [limitStep_sign hσ hlim hpos, ← mul_assoc]
          split
          · exact min_le_left _ _
          · exact le_rfl
        · rename_i hh
          rw [incFactor_eq_one hh, mul_one]; exact min_le_left _ _
      refine ⟨_, w', e, ?_, ?_, ⟨hr', ?_, hT, ?_⟩, fun _ => ⟨rfl, rfl, hT, he⟩, fun h => (nomatch h), fun h => ?_⟩ <;> try dsimp only
      · refine lt_of_lt_of_le (lt_min ?_ (hdt.trans_le hdL)) hval
        rw [mul_assoc]; exact hpos
      · refine le_trans (le_min ?_ ?_) hval
        · nlinarith
        · linarith
      · rw [hnew]; positivity
      · rw [hnew, mul_add C, Real.exp_add]
        have h2 : ‖Φ x t dt‖ ≤ ‖x‖ + ‖Φ x t dt - x‖ := by
          have := norm_add_le x (Φ x t dt - x)
          rwa [add_sub_cancel] at this
        have h3 : C * |dt| + 1 ≤ Real.exp (C * |dt|) := Real.add_one_le_exp _
        have h4 : 1 + ‖Φ x t dt‖ ≤ Real.exp (C * |dt|) * (1 + ‖x‖) := by
          have : (C * |dt| + 1) * (1 + ‖x‖) ≤ Real.exp (C * |dt|) * (1 + ‖x‖) := mul_le_mul_of_nonneg_right h3 (by positivity)
          linarith
        refine h4.trans ((mul_le_mul_of_nonneg_left hx (Real.exp_pos _).le).trans (le_of_eq ?_))
        ring
      · refine le_trans (le_min ?_ hdL) hval
        have := one_le_incFactor_of_small hp (hsmall h)
        nlinarith
  · intro o x t dt w l ⟨hr, ht0, htT, hx⟩ hdt hT hdL
    have h0 : maxDt = σ * L := by
      rcases hL with ⟨-, h⟩ | ⟨h, -⟩
      · exfalso
        rw [mul_add] at hT; rw [mul_sub] at ht0; linarith
      · exact h
    have hL0 : 0 < L := by
      rcases hL with ⟨-, h⟩ | ⟨-, h⟩
      · exfalso
        rw [mul_add] at hT; rw [mul_sub] at ht0; linarith
      · exact h
    have hm : maxDt ≠ 0 := by rw [h0]; rcases hσ with h | h <;> rw [h] <;> intro h' <;> linarith
    have hσm : σ * maxDt = L := by rw [h0]; rcases hσ with h | h <;> rw [h] <;> ring
    obtain ⟨o', w', h⟩ := hst o x t dt w l hr
    dsimp only at h
    have hcheck : ¬ (τ.controlUpTo d p q maxDt).adjuster.checkStepSizeLimit dt = true := by
      rw [upTo_check (d := d) hσ hlim hdt τ p q]
      intro h; exact absurd (h hm) (not_le.2 hdL)
    rcases h with ⟨-, e, hr'⟩ | ⟨h, -⟩ | ⟨h, -⟩
    · exact ⟨o', maxDt, w', e, hσm, hr', ht0, htT, hx⟩
    · exact absurd h hcheck
    · exact absurd h hcheck

theorem reflTransGen_sequence {X : Type} {r : X → X → Prop} {a b : X} (h : Relation.ReflTransGen r a b) :
    ∃ (n : ℕ) (u : ℕ → X), u 0 = a ∧ u n = b ∧ ∀ i < n, r (u i) (u (i + 1)) := by
  induction h with
  | refl => exact ⟨0, fun _ => a, rfl, rfl, fun i hi => absurd hi (by omega)⟩
  | @tail b c _ hr ih =>
    obtain ⟨n, u, h0, hn, hu⟩ := ih
    refine ⟨n + 1, fun i => if i ≤ n then u i else c, by simp [h0], by simp, fun i hi => ?_⟩
    rcases Nat.lt_or_ge i n with h | h
    · simp only [h.le, if_true, Nat.succ_le_iff.2 h]; exact hu i h
    · obtain rfl : i = n := by omega
      simp [hn, hr]

/-- from the tries to the calls -/
theorem reliable_of_tryMem {V : Type} [NormedAddCommGroup V] {st : ControlledStepper Q (W × Log V ℝ) V ℝ} {R : Q → V → ℝ → Prop} {G : Q → ℝ → Prop} {Φ : V → ℝ → ℝ → V → Prop}
    {Acc : V → ℝ → ℝ → Prop} {a b maxDt t0 dt ρ hs L T : ℝ} {x0 : V} {o : Q} {w : W} {l : Log V ℝ} {within : V × ℝ → V × ℝ → Prop} {φ : ℝ → V} {bound : ℝ → ℝ}
    {small : Prop} (ht0 : t0 ∈ Set.Icc a b) (hdt : dt ≠ 0) (hs0 : 0 < hs) (hL0 : 0 < L) (hLm : maxDt ≠ 0 → L = |maxDt|)
    (hin : ∀ t ∈ Set.Icc a b, dirSign dt * t + 1 ≤ T) (htf : TryMem st R G Φ Acc ρ (dirSign dt) T hs L) (hR0 : R o x0 t0)
    (hfresh' : ∀ q' x t, R q' x t → R o x t) (hthrow : ∀ X, X ≤ b - a + 1 → hs < ρ ^ 498 * X → small)
    (hyields : ∀ u v, Accepted Φ Acc (dirSign dt) L u v → within u v)
    (hclose : ∀ H, 0 ≤ H → ∀ v, ReflTransGen (Accepted Φ Acc (dirSign dt) (min H L)) (x0, t0) v → ‖v.1 - φ v.2‖ ≤ bound H) :
    ReliableCalls st a b maxDt t0 dt x0 o w l within φ bound small := by
  set B := b - a + 1 with hBdef
  set σ := dirSign dt with hσdef
  have hσ : σ = 1 ∨ σ = -1 := by rw [hσdef]; unfold dirSign; split <;> simp
  have hpos0 : 0 < σ * dt := (sameDir_iff hdt).1 (SameDir.refl hdt)
  have habsB : ∀ t ∈ Set.Icc a b, |t - t0| ≤ b - a := fun t ht =>
    abs_le.2 ⟨by linarith [ht0.1, ht0.2, ht.1, ht.2], by linarith [ht0.1, ht0.2, ht.1, ht.2]⟩
  have hσabs : |dt| = σ * dt := abs_of_sign hσ hpos0.le
  -- observations at grid points
  have hgridclose : ∀ O : List (V × ℝ), (∀ v ∈ O, ReflTransGen (Accepted Φ Acc σ (min L (σ * dt))) (x0, t0) v) →
      ∀ H, |dt| ≤ H ∨ (maxDt ≠ 0 ∧ |maxDt| ≤ H) → CloseTo φ (bound H) (obsLog O) := by
    intro O hO H hH v hv
    rw [obsLog_observations] at hv
    have hle : min L (σ * dt) ≤ H := by
      rcases hH with h | ⟨h0, h⟩
      · exact (min_le_right _ _).trans (hσabs ▸ h)
      · exact (min_le_left _ _).trans (hLm h0 ▸ h)
    have hH0 : 0 ≤ H := by
      rcases hH with h | ⟨-, h⟩ <;> exact (abs_nonneg _).trans h
    exact hclose H hH0 v (ReflTransGen.mono (fun _ _ h => h.mono (le_min hle (min_le_left _ _))) _ _ (hO v hv))
  have hzero : ∀ n : ℕ, (List.range (n + 1)).map (fun k : ℕ => t0 + (k : ℝ) * dt) =
      (List.range n).map (fun i : ℕ => t0 + ((0 + i : ℕ) : ℝ) * dt) ++ [t0 + n * dt] := by
    intro n
    rw [List.range_succ, List.map_append]
    simp
  -- the outcomes of the loops over grid points
  have hgridok : ∀ (n : ℕ) (r : V × ℝ) (l' : Log V ℝ), GridOk Φ Acc L t0 dt n n 0 x0 l r l' → ∃ l'' : Log V ℝ,
      l' ++ [.obs r.1 r.2] = l ++ l'' ∧ r.2 = t0 + n * dt ∧
      l''.observations.map Prod.snd = (List.range (n + 1)).map (fun k : ℕ => t0 + (k : ℝ) * dt) ∧
      l''.observations.head? = some (x0, t0) ∧ l''.observations.getLast? = some (r.1, t0 + n * dt) ∧
      ∀ H, |dt| ≤ H ∨ (maxDt ≠ 0 ∧ |maxDt| ≤ H) → CloseTo φ (bound H) l'' := by
    intro n r l' ⟨h1, O, h2, h3, h4, h5⟩
    simp only [Nat.cast_zero, zero_mul, add_zero] at h4 h5
    refine ⟨obsLog (O ++ [r]), ?_, h1, ?_, ?_, ?_, hgridclose _ h5⟩
    · rw [h2, obsLog_snoc, List.append_assoc]
    · rw [obsLog_observations, List.map_append, h3, hzero, List.map_singleton, h1]
    · rw [obsLog_observations]; exact h4
    · rw [obsLog_observations, List.getLast?_append, ← h1]; rfl
  have hgriderr : ∀ (n : ℕ) (e : Err) (l' : Log V ℝ), t0 + n * dt ∈ Set.Icc a b → GridErr Φ Acc ρ hs L t0 dt n 0 x0 l e l' →
      e = .stepAdjustment ∧ ∃ l'' : Log V ℝ, l' = l ++ l'' ∧
      l''.observations.map Prod.snd <+: (List.range (n + 1)).map (fun k : ℕ => t0 + (k : ℝ) * dt) ∧
      l''.observations.head? = some (x0, t0) ∧
      (∀ H, |dt| ≤ H ∨ (maxDt ≠ 0 ∧ |maxDt| ≤ H) → CloseTo φ (bound H) l'') ∧ small := by
    intro n e l' hn ⟨h0, h1, O, h2, h3, h4, h5⟩
    simp only [Nat.cast_zero, zero_mul, add_zero] at h4 h5
    refine ⟨h0, obsLog O, h2, ?_, ?_, hgridclose _ h5, hthrow _ ?_ h1⟩
    · rw [obsLog_observations, hzero]; exact h3.trans (List.prefix_append _ _)
    · rw [obsLog_observations]; exact h4
    · have hn0 : n ≠ 0 := by
        rintro rfl
        cases O with
        | nil => cases h4
        | cons c O => simp at h3
      have h6 := habsB _ hn
      rw [add_sub_cancel_left, abs_mul, Nat.abs_cast] at h6
      have h7 : (1 : ℝ) ≤ n := by exact_mod_cast Nat.one_le_iff_ne_zero.2 hn0
      have h8 : |dt| ≤ n * |dt| := le_mul_of_one_le_left (abs_nonneg _) h7
      rw [← hσdef, ← hσabs, hBdef]
      linarith
  refine ⟨?_, ?_, ?_, ?_⟩
  · -- `integrate_adaptive`
    intro eps t1 heps heps1 ht1 h01 Run
    have hrun := adaptiveControlled_mem_run hdt heps hs0 hL0 (htf.mono (T' := σ * t1 + eps) (by linarith [hin t1 ht1])) (obs := recordObserver)
      (P := fun O l1 => l1 = l ++ obsLog O)
      (fun x t O w l1 hl => ⟨w, _, recordObserver_run x t w l1, by rw [hl, obsLog_snoc, List.append_assoc]⟩) o x0 t0 h01 hR0 w l
      (by simp [obsLog])
    have hgood : ∀ O : List (V × ℝ), O.IsChain (Accepted Φ Acc σ (min L (σ * (t1 - t0) + eps))) → O.head? = some (x0, t0) →
        Run (obsLog O) := by
      intro O hch hhd
      refine ⟨?_, ?_, fun H hH hH0 v hv => ?_⟩
      · rw [obsLog_observations]
        refine hch.imp fun u v h => ⟨(sameDir_iff hdt).2 h.1, fun h0 => ?_, hyields u v (h.mono (min_le_left _ _))⟩
        rw [abs_of_sign hσ h.1.le, ← hLm h0]; exact h.2.1.trans (min_le_left _ _)
      · rw [obsLog_observations]; exact hhd
      · rw [obsLog_observations] at hH hv
        have hch' : O.IsChain (Accepted Φ Acc σ (min H L)) := List.isChain_iff_getElem.2 fun i hi => by
          have h1 := List.isChain_iff_getElem.1 hch i hi
          have h2 := List.isChain_iff_getElem.1 hH i hi
          rw [abs_of_sign hσ h1.1.le] at h2
          exact ⟨h1.1, le_min h2 (h1.2.1.trans (min_le_left _ _)), h1.2.2⟩
        exact hclose H hH0 v (reached_of_chain hch' hhd hv)
    cases hres : integrateAdaptiveControlled (TimeArith.exact ℝ eps) st recordObserver o x0 t0 t1 dt (w, l) with
    | ub => rw [hres] at hrun; exact hrun.elim
    | div => rw [hres] at hrun; exact hrun.elim
    | ok r w' =>
      rw [hres] at hrun
      obtain ⟨O, e1, h1, h2, h3, h4, h5, -⟩ := hrun
      obtain ⟨w', l''⟩ := w'
      dsimp only at e1
      subst e1
      refine .inl ⟨r, w', obsLog O, rfl, hgood O h1 h2, ?_, ?_, h5⟩
      · rw [obsLog_observations]; exact h3
      · rw [obsLog_observations]; exact h4
    | err e w' =>
      rw [hres] at hrun
      obtain ⟨he, hh, O, e1, h1, h2⟩ := hrun
      obtain ⟨w', l''⟩ := w'
      dsimp only at e1
      subst e1 he
      exact .inr ⟨w', obsLog O, rfl, hgood O h1 h2, hthrow _ (by rw [hBdef]; linarith [habsB t1 ht1]) hh⟩
  · -- `integrate_n_steps`
    intro n hn
    have hrun := nStepsControlled_loop hdt hs0 hL0 htf hfresh' t0 n (by linarith [hin _ hn]) n 0 (by omega) x0 dt w l (SameDir.refl hdt) (by simpa using hR0)
    cases hres : nStepsControlledLoop (TimeArith.exact ℝ 0) st recordObserver o t0 dt n 0 x0 (t0 + (0 : ℕ) * dt) dt (w, l) with
    | ub => rw [hres] at hrun; exact hrun.elim
    | div => rw [hres] at hrun; exact hrun.elim
    | ok r w' =>
      rw [hres] at hrun
      obtain ⟨l'', e1, e2, h1⟩ := hgridok n r _ hrun
      obtain ⟨w', l'⟩ := w'
      obtain ⟨x, t⟩ := r
      dsimp only at e2
      subst e2
      refine .inl ⟨x, w', l'', ?_, h1⟩
      simp only [Nat.cast_zero, zero_mul, add_zero] at hres
      rw [integrateNStepsControlled, M.bind_ok hres]
      dsimp only
      rw [M.bind_ok (recordObserver_run _ _ _ _), ← e1]
      rfl
    | err e w' =>
      rw [hres] at hrun
      obtain ⟨he, l'', e1, h1⟩ := hgriderr n e _ hn hrun
      obtain ⟨w', l'⟩ := w'
      dsimp only at e1
      subst e1 he
      refine .inr ⟨w', l'', ?_, h1⟩
      simp only [Nat.cast_zero, zero_mul, add_zero] at hres
      rw [integrateNStepsControlled, M.bind_err hres]
  · -- `integrate_const`
    intro t1 ht1 h01
    obtain ⟨n, hlt, hn⟩ := exists_last_grid (0 : ℝ) t0 t1 dt hdt
    have hnb : ¬ Beyond 0 dt (t0 + n * dt) t1 := by
      rcases Nat.eq_zero_or_pos n with h | h
      · subst h; simpa using h01
      · have := hlt (n - 1) (by omega)
        rwa [Nat.sub_add_cancel h] at this
    have hnb' := (not_beyond_iff _ _ _ _).1 hnb
    rw [← hσdef] at hnb'
    have hnI : t0 + n * dt ∈ Set.Icc a b := by
      have h1 : 0 ≤ σ * (n * dt) := by
        rw [mul_left_comm]; positivity
      rcases hσ with h | h <;> rw [h] at h1 hnb' <;> constructor <;> linarith [ht0.1, ht0.2, ht1.1, ht1.2]
    refine ⟨n, hnb, hn, ?_⟩
    have hrun := constControlled_loop hdt hs0 hL0 htf hfresh' t0 t1 n (by linarith [hin _ hnI]) hlt hn n 0 (by omega) x0 dt 0 w l (SameDir.refl hdt)
      (by simpa using hR0)
    cases hres : whileM
      (fun s : CtrlState V ℝ => (TimeArith.exact ℝ 0).lessEqWithSign ((TimeArith.exact ℝ 0).add s.time dt) t1 s.dt)
      (fun s => do
        recordObserver s.x s.time
        let r ← integrateAdaptiveControlled (TimeArith.exact ℝ 0) st nullObserver o s.x s.time ((TimeArith.exact ℝ 0).add s.time dt) s.dt
        return ⟨r.x, (TimeArith.exact ℝ 0).add t0 ((TimeArith.exact ℝ 0).nmul (s.step + 1) dt), r.dt, s.step + 1, s.real + r.count⟩)
      ⟨x0, t0 + (0 : ℕ) * dt, dt, 0, 0⟩ (w, l) with
    | ub => rw [hres] at hrun; exact hrun.elim
    | div => rw [hres] at hrun; exact hrun.elim
    | ok r w' =>
      rw [hres] at hrun
      obtain ⟨l'', e1, e2, h1⟩ := hgridok n (r.x, r.time) _ hrun
      obtain ⟨w', l'⟩ := w'
      refine .inl ⟨r.x, r.real, w', l'', ?_, h1⟩
      simp only [Nat.cast_zero, zero_mul, add_zero] at hres
      rw [integrateConstControlled, M.bind_ok hres]
      rw [M.bind_ok (recordObserver_run _ _ _ _), ← e1]
      rfl
    | err e w' =>
      rw [hres] at hrun
      obtain ⟨he, l'', e1, h1⟩ := hgriderr n e _ hnI hrun
      obtain ⟨w', l'⟩ := w'
      dsimp only at e1
      subst e1 he
      refine .inr ⟨w', l'', ?_, h1⟩
      simp only [Nat.cast_zero, zero_mul, add_zero] at hres
      rw [integrateConstControlled, M.bind_err hres]
  · -- `integrate_times`
    intro times htimes hmono bounds
    have hchain : (t0 :: times).IsChain (fun u v => 0 ≤ σ * (v - u)) := by
      refine (List.Pairwise.isChain hmono).imp fun u v h => ?_
      rw [hσdef]
      unfold dirSign
      split at h <;> rename_i h0
      · rw [if_pos h0]; linarith
      · rw [if_neg h0]; linarith
    have hall : ∀ s ∈ t0 :: times, s ∈ Set.Icc a b := by
      intro s hs
      rcases List.mem_cons.1 hs with rfl | h
      · exact ht0
      · exact htimes s h
    have hBs : (t0 :: times).IsChain (fun u v => σ * (v - u) ≤ B) := List.isChain_iff_getElem.2 fun i hi => by
      have h1 := hall _ (List.getElem_mem (show i < (t0 :: times).length by omega))
      have h2 := hall _ (List.getElem_mem hi)
      rw [hBdef]
      rcases hσ with h | h <;> rw [h] <;> linarith [h1.1, h1.2, h2.1, h2.2]
    have hrun := fun H (hH : (t0 :: times).IsChain (fun u v => min L (dirSign dt * (v - u)) ≤ H)) =>
      timesControlled_loop hdt hs0 hL0 htf H B times t0 ⟨o, x0, 0, dt, 0, 0⟩ w l hchain (fun v hv => by linarith [hin v (htimes v hv)]) hH hBs hR0
        (SameDir.refl hdt) rfl
    have hbd : ∀ H, bounds H → 0 ≤ H ∧ (t0 :: times).IsChain (fun u v => min L (dirSign dt * (v - u)) ≤ H) := by
      intro H hH
      rcases hH with ⟨h0, h⟩ | ⟨h0, h⟩
      · refine ⟨h0, List.isChain_iff_getElem.2 fun i hi => ?_⟩
        have h1 := List.isChain_iff_getElem.1 h i hi
        have h2 := List.isChain_iff_getElem.1 hchain i hi
        rw [abs_of_sign hσ h2] at h1
        exact (min_le_right _ _).trans h1
      · refine ⟨(abs_nonneg _).trans h, List.isChain_iff_getElem.2 fun i hi => ?_⟩
        exact (min_le_left _ _).trans (hLm h0 ▸ h)
    have hL1 : (t0 :: times).IsChain (fun u v => min L (dirSign dt * (v - u)) ≤ L) :=
      List.isChain_iff_getElem.2 fun i hi => min_le_left _ _
    have hrun0 := hrun L hL1
    cases hres : integrateTimesControlled (TimeArith.exact ℝ 0) st recordObserver o x0 (t0 :: times) dt (w, l) with
    | ub => unfold integrateTimesControlled at hres; erw [hres] at hrun0; exact hrun0.elim
    | div => unfold integrateTimesControlled at hres; erw [hres] at hrun0; exact hrun0.elim
    | ok r w' =>
      have hall := fun H hH => hrun H hH
      unfold integrateTimesControlled at hres
      erw [hres] at hrun0
      obtain ⟨O, e1, e2, e3, e4, -⟩ := hrun0
      obtain ⟨w', l'⟩ := w'
      dsimp only at e1
      subst e1
      refine .inl ⟨r.1, r.2, w', obsLog O, rfl, ?_, ?_, ?_, fun H hH v hv => ?_⟩
      · rw [obsLog_observations]; exact e2
      · rw [obsLog_observations]; exact e3
      · rw [obsLog_observations]; exact e4
      · rw [obsLog_observations] at hv
        obtain ⟨hH0, hHc⟩ := hbd H hH
        have h := hrun (min H L) (List.isChain_iff_getElem.2 fun i hi => le_min (List.isChain_iff_getElem.1 hHc i hi) (min_le_left _ _))
        erw [hres] at h
        obtain ⟨O', e1', -, -, -, e5'⟩ := h
        have : O' = O := by
          have := congrArg Log.observations (List.append_cancel_left e1')
          rw [obsLog_observations, obsLog_observations] at this
          exact this.symm
        subst this
        exact hclose H hH0 v (e5' v hv)
    | err e w' =>
      unfold integrateTimesControlled at hres
      erw [hres] at hrun0
      obtain ⟨he, hh, O, e1, e2, e3, -⟩ := hrun0
      obtain ⟨w', l'⟩ := w'
      dsimp only at e1
      subst e1 he
      refine .inr ⟨w', obsLog O, rfl, ?_, ?_, fun H hH v hv => ?_, hthrow _ le_rfl hh⟩
      · rw [obsLog_observations]; exact e2
      · rw [obsLog_observations]; exact e3
      · rw [obsLog_observations] at hv
        obtain ⟨hH0, hHc⟩ := hbd H hH
        have h := hrun (min H L) (List.isChain_iff_getElem.2 fun i hi => le_min (List.isChain_iff_getElem.1 hHc i hi) (min_le_left _ _))
        erw [hres] at h
        obtain ⟨-, -, O', e1', -, -, e5'⟩ := h
        have : O' = O := by
          have := congrArg Log.observations (List.append_cancel_left e1')
          rw [obsLog_observations, obsLog_observations] at this
          exact this.symm
        subst this
        exact hclose H hH0 v (e5' v hv)

theorem reliable_of_tryVal {p q : ℕ} (hp : 1 ≤ p) (hq : 2 ≤ q) {f : (Fin d → ℝ) → ℝ → Fin d → ℝ} (hf : GoodRhs f (p + 1))
    {φ : ℝ → Fin d → ℝ} (hφ : IsFlowLine f φ) {st : Tolerances → ℝ → ControlledStepper Q (W × Log (Fin d → ℝ) ℝ) (Fin d → ℝ) ℝ}
    {ready : Q → (Fin d → ℝ) → ℝ → Prop} {Φ E : (Fin d → ℝ) → ℝ → ℝ → Fin d → ℝ}
    (hst : ∀ (τ : Tolerances) (maxDt : ℝ), τ.Valid → TryVal p q f τ maxDt (st τ maxDt) ready Φ E) (hreg : RegularStep (p + 1) Φ)
    (hgrowth : ∀ a b B : ℝ, ∃ C, 0 ≤ C ∧ ∀ x, ∀ t ∈ Set.Icc a b, ∀ h, |h| ≤ B → ‖Φ x t h - x‖ ≤ C * |h| * (1 + ‖x‖) ∧ ‖E x t h‖ ≤ C * |h| * (1 + ‖x‖))
    (hord : ∀ t, LocalOrder p (Φ (φ t) t) t φ)
    {yields : (Fin d → ℝ) → ℝ → ℝ → (Fin d → ℝ) × (Fin d → ℝ) → Prop} (hy : ∀ x t h, yields x t h (Φ x t h, E x t h))
    {fresh : Q → Prop} (hfresh : ∀ o x t, fresh o → ready o x t) : IntegratesReliably p f yields st fresh φ := by
  intro a b ρ
  set B := b - a + 1 with hBdef
  obtain ⟨C, hC, hgrow⟩ := hgrowth (a - 1) (b + 1) B
  obtain ⟨D, hD, hglob⟩ := global_error hf hreg hφ hord (a - 1) (b + 1) B B
  set N := Real.exp (C * B) * (1 + |ρ|) with hNdef
  have hN0 : 0 < N := by positivity
  set K := max D (B * (C * N + 1) / (9 / 10) ^ p) with hK
  refine ⟨K, ?_⟩
  intro τ maxDt t0 dt x0 o w l hτ hfr hx0 ht0 hdt hmax
  set σ := dirSign dt with hσdef
  have hσ : σ = 1 ∨ σ = -1 := by rw [hσdef]; unfold dirSign; split <;> simp
  have hpos0 : 0 < σ * dt := (sameDir_iff hdt).1 (SameDir.refl hdt)
  set T := max (σ * a) (σ * b) + 1 with hTdef
  have hab : a ≤ b := ht0.1.trans ht0.2
  have hB0 : 0 ≤ B := by rw [hBdef]; linarith
  have hTm : T = if σ = 1 then b + 1 else 1 - a := by
    rw [hTdef]
    rcases hσ with h | h <;> rw [h]
    · rw [if_pos rfl, one_mul, one_mul, max_eq_right hab]
    · rw [if_neg (by norm_num), neg_one_mul, neg_one_mul, max_eq_left (by linarith)]; ring
  have hin : ∀ t ∈ Set.Icc a b, σ * t + 1 ≤ T := by
    intro t ht
    rw [hTm]
    rcases hσ with h | h <;> rw [h]
    · rw [if_pos rfl]; linarith [ht.2]
    · rw [if_neg (by norm_num)]; linarith [ht.1]
  have hB1 : T - σ * t0 ≤ B := by
    rw [hTm, hBdef]
    rcases hσ with h | h <;> rw [h]
    · rw [if_pos rfl]; linarith [ht0.1]
    · rw [if_neg (by norm_num)]; linarith [ht0.2]
  have hIcc : ∀ t, 0 ≤ σ * (t - t0) → σ * t ≤ T → t ∈ Set.Icc (a - 1) (b + 1) := by
    intro t h1 h2
    rw [hTm] at h2
    rcases hσ with h | h <;> rw [h] at h1 h2
    · rw [if_pos rfl] at h2; constructor <;> linarith [ht0.1]
    · rw [if_neg (by norm_num)] at h2; constructor <;> linarith [ht0.2]
  have hT0 : σ * t0 ≤ T := by linarith [hin t0 ht0]
  have hNx : Real.exp (C * B) * (1 + ‖x0‖) ≤ N :=
    mul_le_mul_of_nonneg_left (by linarith [hx0.trans (le_abs_self ρ)]) (Real.exp_pos _).le
  -- the longest step
  set L := if maxDt = 0 then B + 1 else σ * maxDt with hLdef
  have hL : maxDt = 0 ∧ B < L ∨ maxDt = σ * L ∧ 0 < L := by
    rw [hLdef]
    by_cases h0 : maxDt = 0
    · rw [if_pos h0]; exact .inl ⟨h0, by linarith⟩
    · rw [if_neg h0]
      refine .inr ⟨?_, (sameDir_iff hdt).1 (hmax.resolve_left h0)⟩
      rcases hσ with h | h <;> rw [h] <;> ring
  have hL0 : 0 < L := by
    rcases hL with h | h
    · linarith [h.2]
    · exact h.2
  have hLm : maxDt ≠ 0 → L = |maxDt| := by
    intro h0
    rw [hLdef, if_neg h0, abs_of_sign hσ ((sameDir_iff hdt).1 (hmax.resolve_left h0)).le]
  set Acc : (Fin d → ℝ) → ℝ → ℝ → Prop := fun x t h => σ * (t + h) ≤ T ∧ ((τ.checker d).error x (f x t) (E x t h) h).2 ≤ 1 with hAcc
  set R : Q → (Fin d → ℝ) → ℝ → Prop := fun o x t => ready o x t ∧ 0 ≤ σ * (t - t0) ∧ σ * t ≤ T ∧
    1 + ‖x‖ ≤ Real.exp (C * (σ * (t - t0))) * (1 + ‖x0‖) with hR
  set hs := (9 / 10) ^ p * τ.absolute / (C * N + 1) with hhs
  have htf : TryFn (st τ maxDt) R Φ Acc σ T hs L := tryFn_of_tryVal hp hq hτ (hst τ maxDt hτ) (T := T) hσ hL x0 hC (t0 := t0) (B := B) (M := N)
    (fun x t h h1 h2 h3 => hgrow x t (hIcc t h1 h2) h h3) hB1 hNx
  have hs0 : 0 < hs := by rw [hhs]; have := hτ.absolute; positivity
  have hR0 : R o x0 t0 := ⟨hfresh _ _ _ hfr, by simp, hT0, by simp⟩
  have hfresh' : ∀ q' x t, R q' x t → R o x t := fun q' x t h => ⟨hfresh _ _ _ hfr, h.2⟩
  -- when it throws
  have hthrow : ∀ X, X ≤ B → hs < (9 / 10) ^ 498 * X → τ.absolute < K * (9 / 10) ^ 498 := by
    intro X hX hh
    rw [hhs, div_lt_iff₀ (by positivity)] at hh
    have h4 : (9 / 10) ^ p * τ.absolute < (9 / 10) ^ 498 * B * (C * N + 1) :=
      hh.trans_le (mul_le_mul_of_nonneg_right (mul_le_mul_of_nonneg_left hX (by positivity)) (by positivity))
    have h5 : τ.absolute < B * (C * N + 1) / (9 / 10) ^ p * (9 / 10) ^ 498 := by
      rw [div_mul_eq_mul_div, lt_div_iff₀ (by positivity)]
      generalize ((9 : ℝ) / 10) ^ 498 = z at h4 ⊢
      linarith
    exact h5.trans_le (mul_le_mul_of_nonneg_right (le_max_right _ _) (by positivity))
  -- what accepted steps lead to
  have hclose : ∀ H, 0 ≤ H → ∀ v, ReflTransGen (Accepted (fun x t d y => y = Φ x t d) Acc σ (min H L)) (x0, t0) v → ‖v.1 - φ v.2‖ ≤ K * (‖x0 - φ t0‖ + H ^ p) := by
    intro H hH0 v hv
    obtain ⟨n, u, hu0, hun, hu⟩ := reflTransGen_sequence hv
    have hmono : ∀ i, i ≤ n → 0 ≤ σ * ((u i).2 - t0) ∧ σ * (u i).2 ≤ T := by
      intro i
      induction i with
      | zero => intro _; rw [hu0]; exact ⟨by simp, hT0⟩
      | succ i ih =>
        intro hi
        have h1 := hu i (by omega)
        have h2 := ih (by omega)
        refine ⟨?_, ?_⟩
        · have := h1.1
          have e : σ * ((u (i + 1)).2 - t0) = σ * ((u (i + 1)).2 - (u i).2) + σ * ((u i).2 - t0) := by ring
          rw [e]; linarith
        · have := h1.2.2.2.1
          rwa [add_sub_cancel] at this
    have habs : ∀ i, i < n → |(u (i + 1)).2 - (u i).2| = σ * (u (i + 1)).2 - σ * (u i).2 := by
      intro i hi
      rw [abs_of_sign hσ (hu i hi).1.le, mul_sub]
    have hsum : ∀ m, m ≤ n → ∑ i ∈ range m, |(u (i + 1)).2 - (u i).2| = σ * (u m).2 - σ * t0 := by
      intro m
      induction m with
      | zero => intro _; rw [hu0]; simp
      | succ m ih => intro hm; rw [sum_range_succ, ih (by omega), habs m (by omega)]; ring
    have hHB : ∀ i, i < n → |(u (i + 1)).2 - (u i).2| ≤ min H B := by
      intro i hi
      refine le_min ?_ ?_
      · rw [abs_of_sign hσ (hu i hi).1.le]; exact (hu i hi).2.1.trans (min_le_left _ _)
      rw [habs i hi]
      have h1 := (hmono (i + 1) (by omega)).2
      have h2 := (hmono i (by omega)).1
      rw [mul_sub] at h2
      linarith
    have key := hglob n (fun i => (u i).2) (fun i => (u i).1) (min H B) (min_le_right _ _)
      (fun i hi => ⟨hIcc _ (hmono i hi.le).1 (hmono i hi.le).2, hHB i hi, (hu i hi).2.2.1⟩)
      (by rw [hsum n le_rfl]; have := (hmono n le_rfl).2; linarith) (le_min hH0 hB0)
    rw [hu0, hun] at key
    refine key.trans (mul_le_mul (le_max_left _ _) (add_le_add le_rfl (pow_le_pow_left₀ (le_min hH0 hB0) (min_le_left _ _) p)) ?_ ?_)
    · have := le_min hH0 hB0; positivity
    · exact hD.trans (le_max_left _ _)
  refine reliable_of_tryMem ht0 hdt hs0 hL0 hLm hin htf.toMem hR0 hfresh' hthrow (fun u v h => ⟨E u.1 u.2 (v.2 - u.2), ?_, h.2.2.2.2⟩) hclose
  rw [h.2.2.1]; exact hy _ _ _

end Verif
