import Verif.Lemmas.TryMem
import Verif.Spec.Dense
import Mathlib.Logic.Relation

/-! # Runs of the controlled `integrate_n_steps`, `integrate_const` and `integrate_times` -/

namespace Verif
open Relation

variable {V W Q : Type} {st : ControlledStepper Q (W × Log V ℝ) V ℝ} {R : Q → V → ℝ → Prop} {G : Q → ℝ → Prop} {Φ : V → ℝ → ℝ → V → Prop} {Acc : V → ℝ → ℝ → Prop}
  {ρ σ T T' hs L : ℝ}

theorem Accepted.mono {L' : ℝ} (hL : L ≤ L') {a b : V × ℝ} (h : Accepted Φ Acc σ L a b) : Accepted Φ Acc σ L' a b :=
  ⟨h.1, h.2.1.trans hL, h.2.2⟩

theorem reached_of_chain {X : Type} {r : X → X → Prop} : ∀ {O : List X} {a b : X}, O.IsChain r → O.head? = some a → b ∈ O → ReflTransGen r a b := by
  intro O
  induction O with
  | nil => intro a b _ h; cases h
  | cons c O ih =>
    intro a b hch hhd hb
    obtain rfl : c = a := by simpa using hhd
    rcases List.mem_cons.1 hb with rfl | hb
    · exact .refl
    · cases O with
      | nil => cases hb
      | cons c' O =>
        rw [List.isChain_cons_cons] at hch
        exact .head hch.1 (ih hch.2 rfl hb)

/-- the observer calls for a list of states and times -/
def obsLog (O : List (V × ℝ)) : Log V ℝ := O.map fun o => .obs o.1 o.2

theorem obsLog_observations (O : List (V × ℝ)) : (obsLog O).observations = O := by
  simp [obsLog, Log.observations, List.filterMap_map, Function.comp_def]

theorem obsLog_cons (x : V) (t : ℝ) (O : List (V × ℝ)) : obsLog ((x, t) :: O) = .obs x t :: obsLog O := rfl

theorem obsLog_snoc (O : List (V × ℝ)) (r : V × ℝ) : obsLog (O ++ [r]) = obsLog O ++ [.obs r.1 r.2] := by simp [obsLog]

/-- from one grid point to the next one -/
theorem interval_run {dt dt' h : ℝ} (hdt : dt ≠ 0) (hsd : SameDir dt dt') (hs0 : 0 < hs) (hL0 : 0 < L)
    (hst : TryMem st R G Φ Acc ρ (dirSign dt) T hs L) (q : Q) (x : V) (t : ℝ) (hh : 0 ≤ dirSign dt * h) (hT : dirSign dt * (t + h) ≤ T) (hR : R q x t)
    (w : W) (l : Log V ℝ) :
    (integrateAdaptiveControlled (TimeArith.exact ℝ 0) st nullObserver q x t (t + h) dt' (w, l)).Sat
      (fun r w' => w'.2 = l ∧ SameDir dt r.dt ∧ (∃ q', R q' r.x (t + h)) ∧
        ReflTransGen (Accepted Φ Acc (dirSign dt) (min L (dirSign dt * h))) (x, t) (r.x, t + h))
      (fun e w' => w'.2 = l ∧ e = .stepAdjustment ∧ hs < ρ ^ 498 * (dirSign dt * h)) False := by
  have hσ : dirSign dt = dirSign dt' := dirSign_of_sameDir hsd
  have hσ1 : dirSign dt = 1 ∨ dirSign dt = -1 := by unfold dirSign; split <;> simp
  have habs : |t + h - t| = dirSign dt * h := by
    rw [add_sub_cancel_left]
    rcases hσ1 with h1 | h1 <;> rw [h1] at hh ⊢
    · rw [one_mul] at hh ⊢; exact abs_of_nonneg hh
    · rw [neg_one_mul] at hh ⊢; exact abs_of_nonpos (by linarith)
  have hst' : TryMem st R G Φ Acc ρ (dirSign dt') (dirSign dt' * (t + h) + 0) hs L := by
    rw [← hσ, add_zero]; exact hst.mono hT
  have hnb : ¬ Beyond 0 dt' t (t + h) := by
    rw [not_beyond_iff, ← hσ]
    have : dirSign dt * (t - (t + h)) = - (dirSign dt * h) := by ring
    linarith
  have hrun := adaptiveControlled_mem_run (eps := 0) hsd.ne_zero le_rfl hs0 hL0 hst' (obs := nullObserver) (P := fun _ l1 => l1 = l)
    (fun x t O w l1 hl => ⟨w, l1, rfl, hl⟩) q x t hnb hR w l rfl
  refine hrun.mono ?_ ?_ id
  · rintro r w' ⟨O, h1, h2, h3, h4, -, h5, h6, q', h7⟩
    have ht : r.t = t + h := by have := abs_nonpos_iff.1 h5; linarith
    rw [ht] at h4 h7
    have hr := reached_of_chain h2 h3 (List.mem_of_getLast? h4)
    rw [← hσ, add_zero, add_sub_cancel_left] at hr
    exact ⟨h1, hsd.trans h6, ⟨q', h7⟩, hr⟩
  · rintro e w' ⟨h1, h2, O, h3, -, -⟩
    rw [habs, add_zero] at h2
    exact ⟨h3, h1, h2⟩

theorem recordObserver_run (x : V) (t : ℝ) (w : W) (l : Log V ℝ) : recordObserver x t (w, l) = .ok () (w, l ++ [.obs x t]) := rfl

section Grid
variable {dt : ℝ}

/-- what the loops of `integrate_n_steps` and `integrate_const` do from the `s`-th grid point on, when `k` are left -/
def GridOk (Φ : V → ℝ → ℝ → V → Prop) (Acc : V → ℝ → ℝ → Prop) (L t0 dt : ℝ) (n k s : ℕ) (x : V) (l : Log V ℝ) (r : V × ℝ) (l' : Log V ℝ) : Prop :=
  r.2 = t0 + n * dt ∧ ∃ O, l' = l ++ obsLog O ∧ O.map Prod.snd = (List.range k).map (fun i : ℕ => t0 + ((s + i : ℕ) : ℝ) * dt) ∧
    (O ++ [r]).head? = some (x, t0 + s * dt) ∧
    ∀ o ∈ O ++ [r], ReflTransGen (Accepted Φ Acc (dirSign dt) (min L (dirSign dt * dt))) (x, t0 + s * dt) o

def GridErr (Φ : V → ℝ → ℝ → V → Prop) (Acc : V → ℝ → ℝ → Prop) (ρ hs L t0 dt : ℝ) (k s : ℕ) (x : V) (l : Log V ℝ) (e : Err) (l' : Log V ℝ) : Prop :=
  e = .stepAdjustment ∧ hs < ρ ^ 498 * (dirSign dt * dt) ∧ ∃ O, l' = l ++ obsLog O ∧
    O.map Prod.snd <+: (List.range k).map (fun i : ℕ => t0 + ((s + i : ℕ) : ℝ) * dt) ∧ O.head? = some (x, t0 + s * dt) ∧
    ∀ o ∈ O, ReflTransGen (Accepted Φ Acc (dirSign dt) (min L (dirSign dt * dt))) (x, t0 + s * dt) o

theorem range_grid (t0 dt : ℝ) (k s : ℕ) : (List.range (k + 1)).map (fun i : ℕ => t0 + ((s + i : ℕ) : ℝ) * dt) =
    (t0 + s * dt) :: (List.range k).map (fun i : ℕ => t0 + ((s + 1 + i : ℕ) : ℝ) * dt) := by
  rw [List.range_succ_eq_map, List.map_cons, List.map_map]
  congr 1
  refine List.map_congr_left fun i _ => ?_
  simp only [Function.comp, Nat.succ_eq_add_one]
  congr 3
  omega

theorem GridOk.step {t0 : ℝ} {n k s : ℕ} {x y : V} {l l' : Log V ℝ} {r : V × ℝ}
    (hr : ReflTransGen (Accepted Φ Acc (dirSign dt) (min L (dirSign dt * dt))) (x, t0 + s * dt) (y, t0 + (s + 1 : ℕ) * dt))
    (h : GridOk Φ Acc L t0 dt n k (s + 1) y (l ++ [.obs x (t0 + s * dt)]) r l') : GridOk Φ Acc L t0 dt n (k + 1) s x l r l' := by
  obtain ⟨h1, O, h2, h3, h4, h5⟩ := h
  refine ⟨h1, (x, t0 + s * dt) :: O, ?_, ?_, rfl, ?_⟩
  · rw [h2, obsLog_cons, List.append_assoc]; rfl
  · rw [List.map_cons, h3, range_grid]
  · intro o ho
    rcases List.mem_cons.1 ho with rfl | ho
    · exact .refl
    · exact hr.trans (h5 o ho)

theorem GridErr.step {t0 : ℝ} {k s : ℕ} {x y : V} {l l' : Log V ℝ} {e : Err}
    (hr : ReflTransGen (Accepted Φ Acc (dirSign dt) (min L (dirSign dt * dt))) (x, t0 + s * dt) (y, t0 + (s + 1 : ℕ) * dt))
    (h : GridErr Φ Acc ρ hs L t0 dt k (s + 1) y (l ++ [.obs x (t0 + s * dt)]) e l') : GridErr Φ Acc ρ hs L t0 dt (k + 1) s x l e l' := by
  obtain ⟨h0, h1, O, h2, h3, h4, h5⟩ := h
  refine ⟨h0, h1, (x, t0 + s * dt) :: O, ?_, ?_, rfl, ?_⟩
  · rw [h2, obsLog_cons, List.append_assoc]; rfl
  · rw [List.map_cons, range_grid]
    exact (List.prefix_cons_inj _).2 h3
  · intro o ho
    rcases List.mem_cons.1 ho with rfl | ho
    · exact .refl
    · exact hr.trans (h5 o ho)

theorem GridErr.here {t0 : ℝ} {k s : ℕ} {x : V} {l : Log V ℝ} {e : Err} (he : e = .stepAdjustment) (hh : hs < ρ ^ 498 * (dirSign dt * dt)) :
    GridErr Φ Acc ρ hs L t0 dt (k + 1) s x l e (l ++ [.obs x (t0 + s * dt)]) := by
  refine ⟨he, hh, [(x, t0 + s * dt)], rfl, ?_, rfl, ?_⟩
  · rw [range_grid]
    exact (List.prefix_cons_inj _).2 (List.nil_prefix)
  · intro o ho
    obtain rfl := List.mem_singleton.1 ho
    exact .refl

variable (hdt : dt ≠ 0) (hs0 : 0 < hs) (hL0 : 0 < L) (hst : TryMem st R G Φ Acc ρ (dirSign dt) T hs L)
include hdt hs0 hL0 hst

theorem grid_interval {q : Q} (t0 : ℝ) (n k s : ℕ) (hn : s + (k + 1) = n) (hT : dirSign dt * (t0 + n * dt) ≤ T) (x : V) (dt' : ℝ)
    (hsd : SameDir dt dt') (hR : R q x (t0 + s * dt)) (w : W) (l : Log V ℝ) :
    (integrateAdaptiveControlled (TimeArith.exact ℝ 0) st nullObserver q x (t0 + s * dt) (t0 + s * dt + dt) dt' (w, l)).Sat
      (fun r w' => w'.2 = l ∧ SameDir dt r.dt ∧ (∃ q', R q' r.x (t0 + (s + 1 : ℕ) * dt)) ∧
        ReflTransGen (Accepted Φ Acc (dirSign dt) (min L (dirSign dt * dt))) (x, t0 + s * dt) (r.x, t0 + (s + 1 : ℕ) * dt))
      (fun e w' => w'.2 = l ∧ e = .stepAdjustment ∧ hs < ρ ^ 498 * (dirSign dt * dt)) False := by
  have hpos : 0 < dirSign dt * dt := (sameDir_iff hdt).1 (SameDir.refl hdt)
  have et : t0 + (s : ℝ) * dt + dt = t0 + ((s + 1 : ℕ) : ℝ) * dt := by push_cast; ring
  have hT' : dirSign dt * (t0 + s * dt + dt) ≤ T := by
    refine le_trans ?_ hT
    have : (n : ℝ) = s + 1 + k := by rw [← hn]; push_cast; ring
    rw [this]
    have h2 : dirSign dt * (t0 + (s + 1 + k) * dt) = dirSign dt * (t0 + s * dt + dt) + k * (dirSign dt * dt) := by ring
    rw [h2]
    have : 0 ≤ (k : ℝ) * (dirSign dt * dt) := by positivity
    linarith
  have := interval_run (h := dt) hdt hsd hs0 hL0 hst q x (t0 + s * dt) hpos.le hT' hR w l
  rw [et] at this ⊢
  exact this

theorem nStepsControlled_loop {q : Q} (hfresh : ∀ q' x t, R q' x t → R q x t) (t0 : ℝ) (n : ℕ) (hT : dirSign dt * (t0 + n * dt) ≤ T) :
    ∀ k s : ℕ, s + k = n → ∀ (x : V) (dt' : ℝ) (w : W) (l : Log V ℝ), SameDir dt dt' → R q x (t0 + s * dt) →
    (nStepsControlledLoop (TimeArith.exact ℝ 0) st recordObserver q t0 dt k s x (t0 + s * dt) dt' (w, l)).Sat
      (fun r w' => GridOk Φ Acc L t0 dt n k s x l r w'.2) (fun e w' => GridErr Φ Acc ρ hs L t0 dt k s x l e w'.2) False := by
  intro k
  induction k with
  | zero =>
    rintro s rfl x dt' w l - -
    refine ⟨rfl, [], by simp [obsLog], rfl, rfl, ?_⟩
    intro o ho
    obtain rfl := List.mem_singleton.1 ho
    exact .refl
  | succ k ih =>
    intro s hn x dt' w l hsd hR
    rw [nStepsControlledLoop, M.bind_ok (recordObserver_run _ _ _ _)]
    apply Res.Sat.bind
    refine (grid_interval hdt hs0 hL0 hst t0 n k s hn hT x dt' hsd hR w _).mono ?_ ?_ id
    · rintro r ⟨w1, l1⟩ ⟨rfl, h2, ⟨q', h3⟩, h4⟩
      refine (ih (s + 1) (by omega) r.x r.dt w1 _ h2 (hfresh _ _ _ h3)).mono ?_ ?_ id
      · intro r' w' h; exact GridOk.step h4 h
      · intro e w' h; exact GridErr.step h4 h
    · rintro e ⟨w1, l1⟩ ⟨rfl, h2, h3⟩
      exact GridErr.here h2 h3

theorem constControlled_loop {q : Q} (hfresh : ∀ q' x t, R q' x t → R q x t) (t0 t1 : ℝ) (n : ℕ) (hT : dirSign dt * (t0 + n * dt) ≤ T)
    (hlt : ∀ k : ℕ, k < n → ¬ Beyond 0 dt (t0 + (k + 1 : ℕ) * dt) t1) (hn : Beyond 0 dt (t0 + (n + 1 : ℕ) * dt) t1) :
    ∀ k s : ℕ, s + k = n → ∀ (x : V) (dt' : ℝ) (m : ℕ) (w : W) (l : Log V ℝ), SameDir dt dt' → R q x (t0 + s * dt) →
    (whileM
      (fun s : CtrlState V ℝ => (TimeArith.exact ℝ 0).lessEqWithSign ((TimeArith.exact ℝ 0).add s.time dt) t1 s.dt)
      (fun s => do
        recordObserver s.x s.time
        let r ← integrateAdaptiveControlled (TimeArith.exact ℝ 0) st nullObserver q s.x s.time ((TimeArith.exact ℝ 0).add s.time dt) s.dt
        return ⟨r.x, (TimeArith.exact ℝ 0).add t0 ((TimeArith.exact ℝ 0).nmul (s.step + 1) dt), r.dt, s.step + 1, s.real + r.count⟩)
      ⟨x, t0 + s * dt, dt', s, m⟩ (w, l)).Sat
      (fun r w' => GridOk Φ Acc L t0 dt n k s x l (r.x, r.time) w'.2) (fun e w' => GridErr Φ Acc ρ hs L t0 dt k s x l e w'.2) False := by
  have hc : ∀ (s : ℕ) (dt' : ℝ), SameDir dt dt' →
      ((TimeArith.exact ℝ 0).lessEqWithSign ((TimeArith.exact ℝ 0).add (t0 + s * dt) dt) t1 dt' = true ↔ ¬ Beyond 0 dt (t0 + (s + 1 : ℕ) * dt) t1) := by
    intro s dt' hsd
    rw [exact_lessEq, ← dirSign_of_sameDir hsd, not_beyond_iff]
    have et : t0 + (s : ℝ) * dt + dt = t0 + ((s + 1 : ℕ) : ℝ) * dt := by push_cast; ring
    rw [← et]
    rfl
  intro k
  induction k with
  | zero =>
    rintro s rfl x dt' m w l hsd -
    rw [whileM_stop]
    · refine ⟨rfl, [], by simp [obsLog], rfl, rfl, ?_⟩
      intro o ho
      obtain rfl := List.mem_singleton.1 ho
      exact .refl
    · rw [← Bool.not_eq_true, hc _ _ hsd]
      exact not_not.2 hn
  | succ k ih =>
    intro s hk x dt' m w l hsd hR
    have hcond := (hc s dt' hsd).2 (hlt s (by omega))
    rw [whileM_true (s := (⟨x, t0 + s * dt, dt', s, m⟩ : CtrlState V ℝ)) hcond]
    apply Res.Sat.bind
    rw [M.bind_ok (recordObserver_run _ _ _ _)]
    apply Res.Sat.bind
    refine (grid_interval hdt hs0 hL0 hst t0 n k s hk hT x dt' hsd hR w _).mono ?_ ?_ id
    · rintro r ⟨w1, l1⟩ ⟨rfl, h2, ⟨q', h3⟩, h4⟩
      refine (ih (s + 1) (by omega) r.x r.dt (m + r.count) w1 _ h2 (hfresh _ _ _ h3)).mono ?_ ?_ id
      · intro r' w' h; exact GridOk.step h4 h
      · intro e w' h; exact GridErr.step h4 h
    · rintro e ⟨w1, l1⟩ ⟨rfl, h2, h3⟩
      exact GridErr.here h2 h3

end Grid


/-! ## `integrate_times` -/

theorem minAbs_sign (hσ : σ = 1 ∨ σ = -1) {a : ℝ} (ha : 0 < σ * a) (b : ℝ) : σ * (TimeArith.exact ℝ 0).minAbs a b = min (σ * a) (σ * b) := by
  rcases hσ with h | h <;> subst h
  · rw [one_mul] at ha
    simp only [TimeArith.minAbs, TimeArith.stdMin, TimeArith.exact, ha, decide_true, if_true, one_mul, decide_eq_true_eq]
    split
    · rw [min_eq_right (by linarith)]
    · rw [min_eq_left (by linarith)]
  · rw [neg_one_mul] at ha
    have h0 : ¬ (0 : ℝ) < a := by linarith
    simp only [TimeArith.minAbs, TimeArith.stdMax, TimeArith.exact, h0, decide_false, Bool.false_eq_true, if_false, neg_one_mul, decide_eq_true_eq]
    split
    · rw [min_eq_right (by linarith)]
    · rw [min_eq_left (by linarith)]

theorem maxAbs_sign (hσ : σ = 1 ∨ σ = -1) {a : ℝ} (ha : 0 < σ * a) (b : ℝ) : σ * (TimeArith.exact ℝ 0).maxAbs a b = max (σ * a) (σ * b) := by
  rcases hσ with h | h <;> subst h
  · rw [one_mul] at ha
    simp only [TimeArith.maxAbs, TimeArith.stdMax, TimeArith.exact, ha, decide_true, if_true, one_mul, decide_eq_true_eq]
    split
    · rw [max_eq_right (by linarith)]
    · rw [max_eq_left (by linarith)]
  · rw [neg_one_mul] at ha
    have h0 : ¬ (0 : ℝ) < a := by linarith
    simp only [TimeArith.maxAbs, TimeArith.stdMin, TimeArith.exact, h0, decide_false, Bool.false_eq_true, if_false, neg_one_mul, decide_eq_true_eq]
    split
    · rw [max_eq_right (by linarith)]
    · rw [max_eq_left (by linarith)]

theorem timesInner_run {dt : ℝ} (hdt : dt ≠ 0) (hs0 : 0 < hs) (hL0 : 0 < L) (hst : TryMem st R G Φ Acc ρ (dirSign dt) T hs L) (next : ℝ)
    (hT : dirSign dt * next ≤ T) (s0 : TimesState Q V ℝ) (hR : R s0.q s0.x s0.time) (hsd : SameDir dt s0.dt) (hf : s0.fails = 0)
    (hle : 0 ≤ dirSign dt * (next - s0.time)) (w : W) (l : Log V ℝ) :
    (timesControlledInner (TimeArith.exact ℝ 0) st next s0 (w, l)).Sat
      (fun s w' => w'.2 = l ∧ s.time = next ∧ R s.q s.x s.time ∧ SameDir dt s.dt ∧ s.fails = 0 ∧
        ReflTransGen (Accepted Φ Acc (dirSign dt) (min L (dirSign dt * (next - s0.time)))) (s0.x, s0.time) (s.x, s.time))
      (fun e w' => w'.2 = l ∧ e = .stepAdjustment ∧ hs < ρ ^ 498 * (dirSign dt * (next - s0.time))) False := by
  set σ := dirSign dt with hσ
  have hσ1 : σ = 1 ∨ σ = -1 := by rw [hσ]; unfold dirSign; split <;> simp
  have hpos0 : 0 < σ * s0.dt := (sameDir_iff hdt).1 hsd
  set B := σ * (next - s0.time) with hB
  set g := min (σ * s0.dt) (min (hs / 20) L) with hg
  have hg0 : 0 < g := lt_min hpos0 (lt_min (by linarith) hL0)
  let I : TimesState Q V ℝ → W × Log V ℝ → Prop := fun s w' =>
    w'.2 = l ∧ R s.q s.x s.time ∧ g ≤ σ * s.dt ∧ 0 ≤ σ * (next - s.time) ∧ σ * (next - s.time) ≤ B ∧ s.fails ≤ 500 ∧
    (s.fails = 0 ∨ σ * s.dt ≤ σ * (next - s.time) ∧ σ * s.dt ≤ L ∧ σ * s.dt ≤ ρ ^ (s.fails - 1) * B) ∧
    ReflTransGen (Accepted Φ Acc σ (min L B)) (s0.x, s0.time) (s.x, s.time)
  have h0 : I s0 (w, l) := ⟨rfl, hR, min_le_left _ _, hle, le_rfl, by omega, .inl hf, .refl⟩
  unfold timesControlledInner
  refine (whileM_sat_total I (E := fun e w' => w'.2 = l ∧ e = .stepAdjustment ∧ hs < ρ ^ 498 * B) (D := False)
    (fun s _ => ⌈σ * (next - s.time) / g⌉₊ * 501 + (500 - s.fails)) ?_ h0).mono ?_ (fun _ _ h => h) id
  · rintro s ⟨w1, l1⟩ ⟨hl, hR1, hg1, hr0, hrB, hf5, hfl, hreach⟩ hc
    dsimp only at hl
    subst hl
    have hp : 0 < σ * s.dt := hg0.trans_le hg1
    have hsd1 : SameDir dt s.dt := (sameDir_iff hdt).2 hp
    have hlt := (exact_less _ _ _ _).1 hc
    rw [← dirSign_of_sameDir hsd1, ← hσ] at hlt
    have hmin : σ * (TimeArith.exact ℝ 0).minAbs s.dt (next - s.time) = min (σ * s.dt) (σ * (next - s.time)) := minAbs_sign hσ1 hp _
    set c := (TimeArith.exact ℝ 0).minAbs s.dt (next - s.time) with hcdef
    have hcp : 0 < σ * c := by rw [hmin]; exact lt_min hp hlt
    have hcr : σ * c ≤ σ * (next - s.time) := by rw [hmin]; exact min_le_right _ _
    have hcT : σ * (s.time + c) ≤ T := by
      refine le_trans ?_ hT
      rw [mul_sub] at hcr; rw [mul_add]; linarith
    have hcg : g ≤ σ * c ∨ σ * c = σ * (next - s.time) := by
      rw [hmin]
      rcases min_choice (σ * s.dt) (σ * (next - s.time)) with h | h <;> rw [h]
      · exact .inl hg1
      · exact .inr rfl
    unfold timesControlledBody
    show Res.Sat ((st.tryStep s.q s.x s.time c >>= _) (w1, l1)) _ _ _
    by_cases hcL : σ * c ≤ L
    · obtain ⟨r, w2, e, a1, a2, a3, a4, a5, a6⟩ := hst.within s.q s.x s.time c w1 l1 hR1 hcp hcT hcL
      rw [M.bind_ok e]
      cases hsucc : r.success with
      | true =>
        rw [if_pos rfl]
        obtain ⟨b1, b2, b3, -⟩ := a4 hsucc
        have hnew : σ * (next - r.t) = σ * (next - s.time) - σ * c := by rw [b2]; ring
        have hmax : σ * (TimeArith.exact ℝ 0).maxAbs s.dt r.dt = max (σ * s.dt) (σ * r.dt) := maxAbs_sign hσ1 hp _
        refine ⟨⟨rfl, a3, ?_, ?_, ?_, by show (0 : ℕ) ≤ 500; omega, .inl rfl, ?_⟩, ?_⟩
        · show g ≤ σ * (TimeArith.exact ℝ 0).maxAbs s.dt r.dt
          rw [hmax]; exact hg1.trans (le_max_left _ _)
        · show 0 ≤ σ * (next - r.t)
          rw [hnew]; linarith
        · show σ * (next - r.t) ≤ B
          rw [hnew]; linarith
        · refine hreach.tail ?_
          have hcc : r.t - s.time = c := by rw [b2]; ring
          refine ⟨?_, ?_, ?_, ?_⟩ <;> dsimp only <;> rw [hcc]
          · exact hcp
          · exact le_min hcL (hcr.trans hrB)
          · exact b1
          · exact b3
        · show ⌈σ * (next - r.t) / g⌉₊ * 501 + (500 - 0) < ⌈σ * (next - s.time) / g⌉₊ * 501 + (500 - s.fails)
          have hceil : 0 < ⌈σ * (next - s.time) / g⌉₊ := Nat.ceil_pos.2 (div_pos hlt hg0)
          have h3 : ⌈σ * (next - r.t) / g⌉₊ ≤ ⌈σ * (next - s.time) / g⌉₊ - 1 := by
            rcases hcg with h | h
            · have h1 : σ * (next - r.t) / g ≤ σ * (next - s.time) / g - 1 := by
                rw [hnew, sub_div]
                have : 1 ≤ σ * c / g := (one_le_div hg0).2 h
                linarith
              have h2 := Nat.le_ceil (σ * (next - s.time) / g)
              rw [Nat.ceil_le, Nat.cast_sub hceil, Nat.cast_one]
              linarith
            · rw [hnew, h, sub_self, zero_div, Nat.ceil_zero]; omega
          omega
      | false =>
        rw [if_neg (by simp)]
        obtain ⟨b1, b2, b3, b4⟩ := a5 hsucc
        have b3' : σ * r.dt ≤ σ * c := b3.trans (mul_le_of_le_one_left hcp.le hst.rate.2)
        by_cases h500 : s.fails = 500
        · have herr : failedStepChecker defaultMaxSteps s.fails (w2, l1) = .err .stepAdjustment (w2, l1) := by
            rw [failedStepChecker, if_pos (show s.fails ≥ defaultMaxSteps from h500.ge)]; rfl
          rw [M.bind_err herr]
          refine ⟨rfl, rfl, b4.trans_le ?_⟩
          rcases hfl with h | ⟨-, -, h⟩
          · omega
          · have h1 : σ * c ≤ σ * s.dt := by rw [hmin]; exact min_le_left _ _
            rw [h500] at h
            refine (h1.trans h).trans (mul_le_mul_of_nonneg_right (pow_le_pow_of_le_one hst.rate.1 hst.rate.2 (by norm_num)) ?_)
            linarith
        · have hok : failedStepChecker defaultMaxSteps s.fails (w2, l1) = .ok (s.fails + 1) (w2, l1) := by
            rw [failedStepChecker, if_neg (show ¬ s.fails ≥ defaultMaxSteps from fun h => h500 (le_antisymm hf5 h))]; rfl
          rw [M.bind_ok hok]
          have ht : σ * (next - r.t) = σ * (next - s.time) := by rw [b2]
          have hx : (r.x, r.t) = (s.x, s.time) := by rw [b1, b2]
          refine ⟨⟨rfl, a3, ?_, ?_, ?_, ?_, .inr ⟨?_, ?_, ?_⟩, ?_⟩, ?_⟩
          · show g ≤ σ * r.dt
            have h2 : g ≤ hs / 20 := (min_le_right _ _).trans (min_le_left _ _)
            linarith
          · show 0 ≤ σ * (next - r.t)
            rw [ht]; exact hr0
          · show σ * (next - r.t) ≤ B
            rw [ht]; exact hrB
          · show s.fails + 1 ≤ 500
            omega
          · show σ * r.dt ≤ σ * (next - r.t)
            rw [ht]; linarith
          · show σ * r.dt ≤ L
            linarith
          · show σ * r.dt ≤ ρ ^ (s.fails + 1 - 1) * B
            rw [Nat.add_sub_cancel]
            rcases hfl with h | ⟨-, -, h⟩
            · rw [h, pow_zero, one_mul]; linarith
            · have h1 : σ * c ≤ σ * s.dt := by rw [hmin]; exact min_le_left _ _
              rcases Nat.eq_zero_or_pos s.fails with h0 | h0
              · rw [h0, pow_zero, one_mul]; linarith
              · have h2 : ρ ^ s.fails = ρ ^ (s.fails - 1) * ρ := by
                  rw [← pow_succ]; congr 1; omega
                rw [h2, mul_comm (ρ ^ _) ρ, mul_assoc]
                exact b3.trans (mul_le_mul_of_nonneg_left (h1.trans h) hst.rate.1)
          · show ReflTransGen _ _ (r.x, r.t)
            rw [hx]; exact hreach
          · show ⌈σ * (next - r.t) / g⌉₊ * 501 + (500 - (s.fails + 1)) < ⌈σ * (next - s.time) / g⌉₊ * 501 + (500 - s.fails)
            rw [ht]
            omega
    · push Not at hcL
      obtain ⟨q', dt', w2, e, a1, a2⟩ := hst.beyond s.q s.x s.time c w1 l1 hR1 hcp hcT hcL
      rw [M.bind_ok e]
      dsimp only
      rw [if_neg (by simp)]
      have hf0 : s.fails = 0 := by
        rcases hfl with h | ⟨-, h, -⟩
        · exact h
        · have h1 : σ * c ≤ σ * s.dt := by rw [hmin]; exact min_le_left _ _
          linarith
      have hok : failedStepChecker defaultMaxSteps s.fails (w2, l1) = .ok 1 (w2, l1) := by
        rw [failedStepChecker, hf0]; rfl
      rw [M.bind_ok hok]
      refine ⟨⟨rfl, a2, ?_, hr0, hrB, by show (1 : ℕ) ≤ 500; omega, .inr ⟨?_, a1.le, ?_⟩, hreach⟩, ?_⟩
      · show g ≤ σ * dt'
        rw [a1]; exact (min_le_right _ _).trans (min_le_right _ _)
      · show σ * dt' ≤ σ * (next - s.time)
        linarith
      · show σ * dt' ≤ ρ ^ (1 - 1) * B
        rw [Nat.sub_self, pow_zero, one_mul]; linarith
      · show ⌈σ * (next - s.time) / g⌉₊ * 501 + (500 - 1) < ⌈σ * (next - s.time) / g⌉₊ * 501 + (500 - s.fails)
        omega
  · rintro s ⟨w1, l1⟩ ⟨⟨hl, hR1, hg1, hr0, hrB, hf5, hfl, hreach⟩, hc⟩
    have hp : 0 < σ * s.dt := hg0.trans_le hg1
    have hsd1 : SameDir dt s.dt := (sameDir_iff hdt).2 hp
    have hge := (exact_less_false _ _ _ _).1 hc
    rw [← dirSign_of_sameDir hsd1, ← hσ] at hge
    have hz : s.time = next := by
      have : σ * (next - s.time) = 0 := le_antisymm hge hr0
      rcases hσ1 with h | h <;> rw [h] at this <;> linarith
    refine ⟨hl, hz, hR1, hsd1, ?_, hreach⟩
    rcases hfl with h | ⟨h, -, -⟩
    · exact h
    · linarith

theorem timesControlled_loop {dt : ℝ} (hdt : dt ≠ 0) (hs0 : 0 < hs) (hL0 : 0 < L) (hst : TryMem st R G Φ Acc ρ (dirSign dt) T hs L) (L' B : ℝ) :
    ∀ (times : List ℝ) (t : ℝ) (s : TimesState Q V ℝ) (w : W) (l : Log V ℝ), (t :: times).IsChain (fun u v => 0 ≤ dirSign dt * (v - u)) →
    (∀ v ∈ times, dirSign dt * v ≤ T) → (t :: times).IsChain (fun u v => min L (dirSign dt * (v - u)) ≤ L') → 
    (t :: times).IsChain (fun u v => dirSign dt * (v - u) ≤ B) → R s.q s.x t → SameDir dt s.dt → s.fails = 0 →
    (timesControlledLoop (TimeArith.exact ℝ 0) st recordObserver (t :: times) s (w, l)).Sat
      (fun r w' => ∃ O, w'.2 = l ++ obsLog O ∧ O.map Prod.snd = t :: times ∧ O.head? = some (s.x, t) ∧ O.getLast?.map Prod.fst = some r.1 ∧
        ∀ o ∈ O, ReflTransGen (Accepted Φ Acc (dirSign dt) L') (s.x, t) o)
      (fun e w' => e = .stepAdjustment ∧ hs < ρ ^ 498 * B ∧ ∃ O, w'.2 = l ++ obsLog O ∧ O.map Prod.snd <+: t :: times ∧
        O.head? = some (s.x, t) ∧ ∀ o ∈ O, ReflTransGen (Accepted Φ Acc (dirSign dt) L') (s.x, t) o) False := by
  intro times
  induction times with
  | nil =>
    intro t s w l _ _ _ _ hR hsd hf
    rw [timesControlledLoop, M.bind_ok (recordObserver_run _ _ _ _)]
    refine ⟨[(s.x, t)], rfl, rfl, rfl, rfl, ?_⟩
    intro o ho
    obtain rfl := List.mem_singleton.1 ho
    exact .refl
  | cons next times ih =>
    intro t s w l hmono hT hL' hB hR hsd hf
    rw [List.isChain_cons_cons] at hmono hL' hB
    rw [timesControlledLoop, M.bind_ok (recordObserver_run _ _ _ _)]
    apply Res.Sat.bind
    refine (timesInner_run hdt hs0 hL0 hst next (hT next (by simp)) { s with time := t } hR hsd hf hmono.1 w _).mono ?_ ?_ id
    · rintro s1 ⟨w1, l1⟩ ⟨rfl, h2, h3, h4, h5, h6⟩
      rw [h2] at h3
      have hr : ReflTransGen (Accepted Φ Acc (dirSign dt) L') (s.x, t) (s1.x, next) := by
        rw [← h2]
        exact ReflTransGen.mono (fun _ _ h => h.mono hL'.1) _ _ h6
      refine (ih next s1 w1 _ hmono.2 (fun v hv => hT v (by simp [hv])) hL'.2 hB.2 h3 h4 h5).mono ?_ ?_ id
      · rintro r w' ⟨O, e1, e2, e3, e4, e5⟩
        refine ⟨(s.x, t) :: O, ?_, ?_, rfl, ?_, ?_⟩
        · rw [e1, obsLog_cons, List.append_assoc]; rfl
        · rw [List.map_cons, e2]
        · cases O with
          | nil => cases e2
          | cons o O => rw [List.getLast?_cons_cons]; exact e4
        · intro o ho
          rcases List.mem_cons.1 ho with rfl | ho
          · exact .refl
          · exact hr.trans (e5 o ho)
      · rintro e w' ⟨he, hh, O, e1, e2, e3, e5⟩
        refine ⟨he, hh, (s.x, t) :: O, ?_, ?_, rfl, ?_⟩
        · rw [e1, obsLog_cons, List.append_assoc]; rfl
        · rw [List.map_cons]; exact (List.prefix_cons_inj _).2 e2
        · intro o ho
          rcases List.mem_cons.1 ho with rfl | ho
          · exact .refl
          · exact hr.trans (e5 o ho)
    · rintro e ⟨w1, l1⟩ ⟨rfl, h2, h3⟩
      refine ⟨h2, h3.trans_le (mul_le_mul_of_nonneg_left hB.1 (pow_nonneg hst.rate.1 _)), [(s.x, t)], rfl, (List.prefix_cons_inj _).2 List.nil_prefix, rfl, ?_⟩
      intro o ho
      obtain rfl := List.mem_singleton.1 ho
      exact .refl

end Verif
