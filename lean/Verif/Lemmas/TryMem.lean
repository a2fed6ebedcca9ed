import Verif.Lemmas.ControlledRun

/-! # `integrate_adaptive` with controlled steppers whose choice of the next step size depends on the previous one -/

namespace Verif
variable {V W Q : Type}

/-- How the tries of a controlled stepper behave, for integrations in the direction `σ` (`1` or `-1`) up to the time `T`: in every state of the
stepper allowed by `R` a try with a step size up to `L` returns, the step size keeps its direction and is at most divided by twenty; a successful try
yields a state allowed by `Φ` and satisfies `Acc`; a failed one changes neither state nor time and decreases the step size by the factor `ρ` at least; a try with step size up
to `hs` succeeds and does not decrease the step size, if `G` holds for the memory of the stepper and the step size; this is so after every success.
A try with a larger step size than `L` only changes the step size to `L`. -/
structure TryMem (st : ControlledStepper Q (W × Log V ℝ) V ℝ) (R : Q → V → ℝ → Prop) (G : Q → ℝ → Prop) (Φ : V → ℝ → ℝ → V → Prop)
    (Acc : V → ℝ → ℝ → Prop) (ρ σ T hs L : ℝ) : Prop where
  rate : 0 ≤ ρ ∧ ρ ≤ 1
  within : ∀ q x t dt w l, R q x t → 0 < σ * dt → σ * (t + dt) ≤ T → σ * dt ≤ L → ∃ r w', st.tryStep q x t dt (w, l) = .ok r (w', l) ∧
    0 < σ * r.dt ∧ σ * dt / 20 ≤ σ * r.dt ∧ R r.q r.x r.t ∧
    (r.success = true → Φ x t dt r.x ∧ r.t = t + dt ∧ Acc x t dt ∧ G r.q r.dt) ∧
    (r.success = false → r.x = x ∧ r.t = t ∧ σ * r.dt ≤ ρ * (σ * dt) ∧ hs < σ * dt) ∧
    (G q dt → σ * dt ≤ hs → σ * dt ≤ σ * r.dt)
  beyond : ∀ q x t dt w l, R q x t → 0 < σ * dt → σ * (t + dt) ≤ T → L < σ * dt → ∃ q' dt' w',
    st.tryStep q x t dt (w, l) = .ok ⟨q', x, t, dt', false⟩ (w', l) ∧ σ * dt' = L ∧ R q' x t

variable {st : ControlledStepper Q (W × Log V ℝ) V ℝ} {R : Q → V → ℝ → Prop} {G : Q → ℝ → Prop} {Φ : V → ℝ → ℝ → V → Prop} {Acc : V → ℝ → ℝ → Prop} {ρ σ T hs L : ℝ}

/-- the state after a step accepted with the step size `d`, starting from `(x,t)` with a step size of `σ * δ` -/
structure MemAccepted (G : Q → ℝ → Prop) (Φ : V → ℝ → ℝ → V → Prop) (Acc : V → ℝ → ℝ → Prop) (σ hs L δ : ℝ) (g : Prop) (x : V) (t : ℝ)
    (s : AdaptState Q V ℝ) (d : ℝ) : Prop where
  pos : 0 < σ * d
  le : σ * d ≤ δ
  lim : σ * d ≤ L
  state : Φ x t d s.x
  time : s.t = t + d
  acc : Acc x t d
  fits : G s.q s.dt
  size : (σ * d = δ ∧ (g → σ * d ≤ hs → σ * d ≤ σ * s.dt)) ∨ hs / 20 < σ * d ∨ σ * d = L
  next : σ * d / 20 ≤ σ * s.dt

theorem TryMem.mono {T' : ℝ} (h : TryMem st R G Φ Acc ρ σ T hs L) (hT : T' ≤ T) : TryMem st R G Φ Acc ρ σ T' hs L :=
  ⟨h.rate, fun q x t dt w l h1 h2 h3 => h.within q x t dt w l h1 h2 (h3.trans hT), fun q x t dt w l h1 h2 h3 => h.beyond q x t dt w l h1 h2 (h3.trans hT)⟩

/-- steppers without such a memory -/
theorem TryFn.toMem {Φ : V → ℝ → ℝ → V} (h : TryFn st R Φ Acc σ T hs L) : TryMem st R (fun _ _ => True) (fun x t d y => y = Φ x t d) Acc (9 / 10) σ T hs L := by
  refine ⟨by norm_num, fun q x t dt w l h1 h2 h3 h4 => ?_, h.beyond⟩
  obtain ⟨r, w', e, a1, a2, a3, a4, a5, a6⟩ := h.within q x t dt w l h1 h2 h3 h4
  exact ⟨r, w', e, a1, by linarith, a3, fun hs => ⟨(a4 hs).1, (a4 hs).2.1, (a4 hs).2.2, trivial⟩, a5, fun _ => a6⟩

theorem retryLoop_mem_within (hst : TryMem st R G Φ Acc ρ σ T hs L) (s : AdaptState Q V ℝ) (hf : s.fails ≤ 1) (hR : R s.q s.x s.t) (hpos : 0 < σ * s.dt)
    (hT : σ * (s.t + s.dt) ≤ T) (hL : σ * s.dt ≤ L) (w : W) (l : Log V ℝ) :
    (retryLoop st s (w, l)).Sat
      (fun s' w' => w'.2 = l ∧ R s'.q s'.x s'.t ∧ 0 < σ * s'.dt ∧ ∃ d, MemAccepted G Φ Acc σ hs L (σ * s.dt) (G s.q s.dt) s.x s.t s' d)
      (fun e w' => w'.2 = l ∧ e = .stepAdjustment ∧ hs < ρ ^ 498 * (σ * s.dt)) False := by
  set δ := σ * s.dt with hδ
  -- before a try
  let Pre : AdaptState Q V ℝ → Prop := fun s' => R s'.q s'.x s'.t ∧ s'.x = s.x ∧ s'.t = s.t ∧ 0 < σ * s'.dt ∧ s'.fails ≤ 500 ∧
    s.fails ≤ s'.fails ∧
    σ * s'.dt ≤ ρ ^ (s'.fails - s.fails) * δ ∧ (s'.fails ≠ s.fails → hs < ρ ^ (s'.fails - s.fails - 1) * δ) ∧
    ((s'.q = s.q ∧ s'.dt = s.dt) ∨ hs / 20 < σ * s'.dt)
  let I : AdaptState Q V ℝ → W × Log V ℝ → Prop := fun s' w' => w'.2 = l ∧
    ((s'.success = false ∧ Pre s') ∨ (s'.success = true ∧ R s'.q s'.x s'.t ∧ 0 < σ * s'.dt ∧ ∃ d, MemAccepted G Φ Acc σ hs L δ (G s.q s.dt) s.x s.t s' d))
  have hpow : ∀ n : ℕ, ρ ^ n * δ ≤ δ := fun n => mul_le_of_le_one_left hpos.le (pow_le_one₀ hst.rate.1 hst.rate.2)
  have h0 : I { s with success := false } (w, l) :=
    ⟨rfl, .inl ⟨rfl, hR, rfl, rfl, hpos, by show s.fails ≤ 500; omega, le_rfl, by show σ * s.dt ≤ _; simp [hδ], fun h => absurd rfl h, .inl ⟨rfl, rfl⟩⟩⟩
  rw [retryLoop_while]
  refine (whileM_sat_total I (E := fun e w' => w'.2 = l ∧ e = .stepAdjustment ∧ hs < ρ ^ 498 * δ) (D := False)
    (fun s' _ => 501 - s'.fails) ?_ h0).mono ?_ (fun _ _ h => h) id
  · rintro s' ⟨w1, l1⟩ ⟨rfl, hI⟩ hc
    have hfalse : s'.success = false := by simpa using hc
    rcases hI with ⟨-, hR', hx, ht, hp', hle, hge, hdec, hfail, hsize⟩ | ⟨h, -⟩
    swap
    · rw [hfalse] at h; cases h
    have hδ' : σ * s'.dt ≤ δ := hdec.trans (hpow _)
    have hT' : σ * (s'.t + s'.dt) ≤ T := by
      rw [ht]; rw [mul_add] at hT ⊢; linarith
    obtain ⟨r, w2, e, hr0, hr5, hrR, hrs, hrf, hrk⟩ := hst.within s'.q s'.x s'.t s'.dt w1 l1 hR' hp' hT' (hδ'.trans hL)
    unfold retryBody
    rw [M.bind_ok e]
    by_cases hlim : 500 ≤ s'.fails
    · have h500 : s'.fails = 500 := by omega
      have hthrow : failedStepChecker defaultMaxSteps s'.fails (w2, l1) = .err .stepAdjustment (w2, l1) := by
        rw [failedStepChecker, if_pos (show s'.fails ≥ defaultMaxSteps from hlim)]; rfl
      rw [M.bind_err hthrow]
      refine ⟨rfl, rfl, ?_⟩
      refine (hfail (by omega)).trans_le (mul_le_mul_of_nonneg_right (pow_le_pow_of_le_one hst.rate.1 hst.rate.2 ?_) hpos.le)
      omega
    · have hok : failedStepChecker defaultMaxSteps s'.fails (w2, l1) = .ok (s'.fails + 1) (w2, l1) := by
        rw [failedStepChecker, if_neg (show ¬ s'.fails ≥ defaultMaxSteps from hlim)]; rfl
      rw [M.bind_ok hok]
      refine ⟨⟨rfl, ?_⟩, ?_⟩
      · cases hsucc : r.success with
        | true =>
          obtain ⟨h1, h2, h3, h3'⟩ := hrs hsucc
          refine .inr ⟨rfl, hrR, hr0, s'.dt, hp', hδ', hδ'.trans hL, ?_, ?_, ?_, h3', ?_, hr5⟩
          · rw [← hx, ← ht]; exact h1
          · rw [← ht]; exact h2
          · rw [← hx, ← ht]; exact h3
          · rcases hsize with ⟨e1, e2⟩ | h
            · refine .inl ⟨by rw [e2], fun hg hh => ?_⟩
              rw [← e1, ← e2] at hg
              exact hrk hg hh
            · exact .inr (.inl h)
        | false =>
          obtain ⟨h1, h2, h3, h4⟩ := hrf hsucc
          refine .inl ⟨rfl, hrR, h1.trans hx, h2.trans ht, hr0, ?_, ?_, ?_, fun _ => ?_, .inr ?_⟩
          · show s'.fails + 1 ≤ 500
            omega
          · show s.fails ≤ s'.fails + 1
            omega
          · show σ * r.dt ≤ ρ ^ (s'.fails + 1 - s.fails) * δ
            rw [show s'.fails + 1 - s.fails = s'.fails - s.fails + 1 by omega, pow_succ, mul_comm (ρ ^ _) ρ, mul_assoc]
            exact h3.trans (mul_le_mul_of_nonneg_left hdec hst.rate.1)
          · show hs < ρ ^ (s'.fails + 1 - s.fails - 1) * δ
            rw [show s'.fails + 1 - s.fails - 1 = s'.fails - s.fails by omega]
            exact h4.trans_le hdec
          · show hs / 20 < σ * r.dt
            linarith
      · show 501 - (s'.fails + 1) < 501 - s'.fails
        omega
  · rintro s' w' ⟨⟨h1, h2⟩, hc⟩
    rcases h2 with ⟨h2, -⟩ | ⟨-, h3⟩
    · rw [h2] at hc; cases hc
    · exact ⟨h1, h3⟩

theorem retryLoop_mem (hst : TryMem st R G Φ Acc ρ σ T hs L) (hL0 : 0 < L) (s : AdaptState Q V ℝ) (hf : s.fails = 0) (hR : R s.q s.x s.t)
    (hpos : 0 < σ * s.dt) (hT : σ * (s.t + s.dt) ≤ T) (w : W) (l : Log V ℝ) :
    (retryLoop st s (w, l)).Sat
      (fun s' w' => w'.2 = l ∧ R s'.q s'.x s'.t ∧ 0 < σ * s'.dt ∧ ∃ d, MemAccepted G Φ Acc σ hs L (σ * s.dt) (G s.q s.dt) s.x s.t s' d)
      (fun e w' => w'.2 = l ∧ e = .stepAdjustment ∧ hs < ρ ^ 498 * (σ * s.dt)) False := by
  by_cases hL : σ * s.dt ≤ L
  · exact retryLoop_mem_within hst s (by omega) hR hpos hT hL w l
  · push Not at hL
    obtain ⟨q', dt', w', e, h1, h2⟩ := hst.beyond s.q s.x s.t s.dt w l hR hpos hT hL
    set s1 : AdaptState Q V ℝ := ⟨q', s.x, s.t, dt', 1, false⟩ with hs1
    have hstep : retryBody st { s with success := false } (w, l) = .ok s1 (w', l) := by
      unfold retryBody
      rw [M.bind_ok e]
      have hok : failedStepChecker defaultMaxSteps s.fails (w', l) = .ok 1 (w', l) := by
        rw [failedStepChecker, hf]; rfl
      rw [M.bind_ok hok]
      rfl
    have heq : retryLoop st s (w, l) = retryLoop st s1 (w', l) := by
      rw [retryLoop_while, whileM_step_ok rfl hstep, retryLoop_while]
    rw [heq]
    have hT1 : σ * (s.t + dt') ≤ T := by rw [mul_add] at hT ⊢; linarith
    refine (retryLoop_mem_within hst s1 le_rfl h2 (by show 0 < σ * dt'; linarith) hT1 h1.le w' l).mono ?_ ?_ id
    · rintro s' w2 ⟨a1, a2, a3, d, hd⟩
      have hle : σ * d ≤ σ * dt' := hd.le
      refine ⟨a1, a2, a3, d, hd.pos, by linarith, hd.lim, hd.state, hd.time, hd.acc, hd.fits, ?_, hd.next⟩
      rcases hd.size with ⟨h, -⟩ | h | h
      · right; right; exact h.trans h1
      · exact .inr (.inl h)
      · exact .inr (.inr h)
    · rintro e w2 ⟨a1, a2, a3⟩
      refine ⟨a1, a2, a3.trans_le (mul_le_mul_of_nonneg_left ?_ (pow_nonneg hst.rate.1 _))⟩
      show σ * dt' ≤ _
      linarith

theorem adaptiveControlled_mem_run {dt eps t1 : ℝ} (hdt : dt ≠ 0) (heps : 0 ≤ eps) (hs0 : 0 < hs) (hL0 : 0 < L)
    (hst : TryMem st R G Φ Acc ρ (dirSign dt) (dirSign dt * t1 + eps) hs L) {obs : Observer (W × Log V ℝ) V ℝ} {P : List (V × ℝ) → Log V ℝ → Prop}
    (hobs : ∀ x t O w l, P O l → ∃ w' l', obs x t (w, l) = .ok () (w', l') ∧ P (O ++ [(x, t)]) l') (q : Q) (x0 : V) (t0 : ℝ) (h01 : ¬ Beyond eps dt t0 t1) (hR : R q x0 t0)
    (w : W) (l : Log V ℝ) (hP : P [] l) :
    (integrateAdaptiveControlled (TimeArith.exact ℝ eps) st obs q x0 t0 t1 dt (w, l)).Sat
      (fun r w' => ∃ O, P O w'.2 ∧ O.IsChain (Accepted Φ Acc (dirSign dt) (min L (dirSign dt * (t1 - t0) + eps))) ∧ O.head? = some (x0, t0) ∧
        O.getLast? = some (r.x, r.t) ∧ O.length = r.count + 1 ∧ |r.t - t1| ≤ eps ∧ SameDir dt r.dt ∧ ∃ q', R q' r.x r.t)
      (fun e w' => e = .stepAdjustment ∧ hs < ρ ^ 498 * (|t1 - t0| + eps) ∧
        ∃ O, P O w'.2 ∧ O.IsChain (Accepted Φ Acc (dirSign dt) (min L (dirSign dt * (t1 - t0) + eps))) ∧ O.head? = some (x0, t0)) False := by
  set σ := dirSign dt with hσ
  have hσσ : σ * σ = 1 := by rw [hσ]; unfold dirSign; split <;> norm_num
  have hσa : ∀ a : ℝ, σ * a ≤ |a| := by
    intro a; rw [hσ]; unfold dirSign; split
    · rw [one_mul]; exact le_abs_self a
    · rw [neg_one_mul]; exact neg_le_abs a
  have hpos0 : 0 < σ * dt := (sameDir_iff hdt).1 (SameDir.refl hdt)
  have hdir : ∀ d : ℝ, 0 < σ * d → SameDir dt d := fun d h => (sameDir_iff hdt).2 h
  set g := min (σ * dt / 20) (min (hs / 400) (L / 20)) with hg
  have hg0 : 0 < g := lt_min (by linarith) (lt_min (by linarith) (by linarith))
  rw [not_beyond_iff] at h01
  -- at the head of the outer loop
  let I : AdaptState Q V ℝ × ℕ → W × Log V ℝ → Prop := fun p w' =>
    R p.1.q p.1.x p.1.t ∧ p.1.fails = 0 ∧ 0 < σ * p.1.dt ∧ σ * (p.1.t - t1) ≤ eps ∧ σ * (t1 - p.1.t) ≤ σ * (t1 - t0) ∧
    ((g ≤ σ * p.1.dt ∧ G p.1.q p.1.dt) ∨ 20 * g ≤ σ * p.1.dt ∨ σ * (t1 - p.1.t) ≤ eps) ∧
    ∃ O, P O w'.2 ∧ (O ++ [(p.1.x, p.1.t)]).IsChain (Accepted Φ Acc σ (min L (σ * (t1 - t0) + eps))) ∧
      (O ++ [(p.1.x, p.1.t)]).head? = some (x0, t0) ∧ O.length = p.2
  have h0 : I (⟨q, x0, t0, dt, 0, true⟩, 0) (w, l) :=
    ⟨hR, rfl, hpos0, h01, le_rfl, .inr (.inl (by have := min_le_left (σ * dt / 20) (min (hs / 400) (L / 20)); rw [← hg] at this; linarith)), [], hP, by simp, by simp, rfl⟩
  unfold integrateAdaptiveControlled
  apply Res.Sat.bind
  refine (whileM_sat_total I
    (E := fun e w' => e = .stepAdjustment ∧ hs < ρ ^ 498 * (|t1 - t0| + eps) ∧
        ∃ O, P O w'.2 ∧ O.IsChain (Accepted Φ Acc σ (min L (σ * (t1 - t0) + eps))) ∧ O.head? = some (x0, t0)) (D := False)
    (fun p _ => ⌈σ * (t1 - p.1.t) / g⌉₊) ?_ h0).mono ?_ (fun _ _ h => h) id
  · rintro ⟨s, n⟩ ⟨w1, l1⟩ ⟨hR1, hf1, hp1, hb1, hm1, hg1, O, hl1, hch, hhd, hlen⟩ hc
    dsimp only at hR1 hf1 hp1 hb1 hm1 hg1 hl1 hch hhd hlen hc ⊢
    have hsd := hdir _ hp1
    have hlt := (exact_less _ _ _ _).1 hc
    rw [← dirSign_of_sameDir hsd, ← hσ] at hlt
    obtain ⟨hcd, hcb⟩ := clipDt_exact heps hc hsd.ne_zero
    rw [← dirSign_of_sameDir hsd, ← hσ] at hcb
    have hcp : 0 < σ * clipDt (TimeArith.exact ℝ eps) s.t t1 s.dt := (sameDir_iff hdt).1 (hsd.trans hcd)
    have hclip : clipDt (TimeArith.exact ℝ eps) s.t t1 s.dt = t1 - s.t ∨ clipDt (TimeArith.exact ℝ eps) s.t t1 s.dt = s.dt := by
      unfold clipDt
      split
      · exact .inl rfl
      · exact .inr rfl
    set c := clipDt (TimeArith.exact ℝ eps) s.t t1 s.dt with hcdef
    obtain ⟨w1', l1', eobs, hP'⟩ := hobs s.x s.t O w1 l1 hl1
    rw [M.bind_ok eobs]
    apply Res.Sat.bind
    have hrun := retryLoop_mem (T := σ * t1 + eps) hst hL0 { s with dt := c } hf1 hR1 hcp
      (by show σ * (s.t + c) ≤ _; rw [mul_sub] at hcb; linarith) w1' l1'
    refine hrun.mono ?_ ?_ id
    · rintro s' ⟨w2, l2⟩ ⟨hl2, hR2, hp2, d, hd⟩
      dsimp only at hl2
      subst hl2
      have hdd : s'.t - s.t = d := by rw [hd.time]; ring
      have hnew : σ * (t1 - s'.t) = σ * (t1 - s.t) - σ * d := by rw [hd.time]; ring
      have hdc : σ * d ≤ σ * c := hd.le
      have hdpos := hd.pos
      have hcb' : σ * c - σ * (t1 - s.t) ≤ eps := by
        have : σ * (s.t + c - t1) = σ * c - σ * (t1 - s.t) := by ring
        linarith
      have hg5 : g ≤ hs / 400 := (min_le_right _ _).trans (min_le_left _ _)
      have hgL : g ≤ L / 20 := (min_le_right _ _).trans (min_le_right _ _)
      have hnext := hd.next
      have hbig : (g ≤ σ * d ∧ g ≤ σ * s'.dt) ∨ σ * (t1 - s'.t) = 0 := by
        rcases hd.size with ⟨h, hk⟩ | h | h
        · rcases hclip with h' | h'
          · right
            have : σ * d = σ * c := h
            rw [hnew, this, h', sub_self]
          · left
            have h2 : σ * d = σ * s.dt := by rw [← h']; exact h
            rcases hg1 with ⟨h1, hG⟩ | h1 | h1
            · refine ⟨h2 ▸ h1, ?_⟩
              by_cases hsm : σ * d ≤ hs
              · have h3 := hk (by show G s.q c; rw [h']; exact hG) hsm
                linarith
              · push Not at hsm
                linarith
            · exact ⟨by linarith, by linarith⟩
            · exact absurd h1 (not_le.2 hlt)
        · exact .inl ⟨by linarith, by linarith⟩
        · exact .inl ⟨by linarith, by linarith⟩
      refine ⟨⟨hR2, rfl, hp2, ?_, ?_, ?_, O ++ [(s.x, s.t)], hP', ?_, ?_, ?_⟩, ?_⟩
      · show σ * (s'.t - t1) ≤ eps
        have : σ * (s'.t - t1) = - (σ * (t1 - s'.t)) := by ring
        rw [this, hnew]; linarith
      · show σ * (t1 - s'.t) ≤ _
        rw [hnew]; linarith
      · show (g ≤ σ * s'.dt ∧ G s'.q s'.dt) ∨ 20 * g ≤ σ * s'.dt ∨ σ * (t1 - s'.t) ≤ eps
        rcases hbig with h | h
        · exact .inl ⟨h.2, hd.fits⟩
        · right; right; rw [h]; exact heps
      · show ((O ++ [(s.x, s.t)]) ++ [(s'.x, s'.t)]).IsChain _
        rw [List.isChain_append]
        refine ⟨hch, List.isChain_singleton _, ?_⟩
        intro a ha b hb
        simp only [List.getLast?_append, List.getLast?_singleton, Option.some_or, Option.mem_def, Option.some.injEq, List.head?_cons] at ha hb
        subst ha hb
        refine ⟨?_, ?_, ?_, ?_⟩ <;> dsimp only <;> rw [hdd]
        · exact hd.pos
        · refine le_min hd.lim ?_
          linarith
        · exact hd.state
        · exact hd.acc
      · show ((O ++ [(s.x, s.t)]) ++ [(s'.x, s'.t)]).head? = _
        rw [List.head?_append, hhd]; rfl
      · show (O ++ [(s.x, s.t)]).length = n + 1
        rw [List.length_append, hlen]; rfl
      · show ⌈σ * (t1 - s'.t) / g⌉₊ < ⌈σ * (t1 - s.t) / g⌉₊
        have hr0 : 0 < σ * (t1 - s.t) := heps.trans_lt hlt
        have hceil : 0 < ⌈σ * (t1 - s.t) / g⌉₊ := Nat.ceil_pos.2 (div_pos hr0 hg0)
        rcases hbig with ⟨h, -⟩ | h
        · have h1 : σ * (t1 - s'.t) / g ≤ σ * (t1 - s.t) / g - 1 := by
            rw [hnew, sub_div]
            have : 1 ≤ σ * d / g := (one_le_div hg0).2 h
            linarith
          have h2 := Nat.le_ceil (σ * (t1 - s.t) / g)
          have h3 : ⌈σ * (t1 - s'.t) / g⌉₊ ≤ ⌈σ * (t1 - s.t) / g⌉₊ - 1 := by
            rw [Nat.ceil_le]
            rw [Nat.cast_sub hceil, Nat.cast_one]
            linarith
          omega
        · rw [h, zero_div, Nat.ceil_zero]; exact hceil
    · rintro e ⟨w2, l2⟩ ⟨hl2, he, hh⟩
      dsimp only at hl2
      subst hl2
      refine ⟨he, hh.trans_le ?_, O ++ [(s.x, s.t)], hP', hch, hhd⟩
      · refine mul_le_mul_of_nonneg_left ?_ (pow_nonneg hst.rate.1 _)
        show σ * c ≤ |t1 - t0| + eps
        have h1 := hσa (t1 - t0)
        have : σ * (s.t + c - t1) = σ * c - σ * (t1 - s.t) := by ring
        linarith
  · rintro ⟨s, n⟩ ⟨w1, l1⟩ ⟨⟨hR1, hf1, hp1, hb1, hm1, hg1, O, hl1, hch, hhd, hlen⟩, hc⟩
    dsimp only at hR1 hf1 hp1 hb1 hm1 hg1 hl1 hch hhd hlen hc ⊢
    have hsd := hdir _ hp1
    have hle := (exact_less_false _ _ _ _).1 hc
    rw [← dirSign_of_sameDir hsd, ← hσ] at hle
    obtain ⟨w1', l1', eobs, hP'⟩ := hobs s.x s.t O w1 l1 hl1
    rw [M.bind_ok eobs]
    refine ⟨O ++ [(s.x, s.t)], hP', hch, hhd, ?_, ?_, ?_, hsd, s.q, hR1⟩
    · rw [List.getLast?_append]; rfl
    · rw [List.length_append, hlen]; rfl
    · show |s.t - t1| ≤ eps
      rw [abs_le]
      have h2 : σ * (t1 - s.t) = - (σ * (s.t - t1)) := by ring
      rw [h2] at hle
      have hσ1 : σ = 1 ∨ σ = -1 := by rw [hσ]; unfold dirSign; split <;> simp
      rcases hσ1 with h | h <;> rw [h] at hle hb1 <;> constructor <;> linarith

end Verif
