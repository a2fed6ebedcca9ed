import Verif.Lemmas.GridRun
import Verif.Lemmas.Controlled
import Verif.Props.DenseTimes
import Mathlib.Algebra.Order.Floor.Ring

/-! # Runs of the integrate functions with a dense output stepper whose steps behave as described by a contract -/

namespace Verif

variable {V W Q : Type}

/-- How the calls of a dense output stepper behave, for integrations in the direction `σ` (`1` or `-1`) up to the time `T`.  `R` holds after
`initialize` and after each step, `Dense q lo` after a step that began at the time `lo`; `Reached` are the states and times reached by steps, `Acc`
relates the beginning and the end of a step, `Obs` are the interpolated states.  A step is as long as proposed or at least `g`; the next proposal is
not shorter than the step.  The only exception is `step_adjustment_error`, and it implies `Fail`. -/
structure DenseFn (st : DenseStepper Q (W × Log V ℝ) V ℝ) (R : Q → Prop) (Dense : Q → ℝ → Prop) (Reached : V × ℝ → Prop)
    (Acc : V × ℝ → V × ℝ → Prop) (Obs : V → ℝ → Prop) (Fail : Prop) (σ T g : ℝ) : Prop where
  reached : ∀ q, R q → Reached (st.curState q, st.curTime q)
  init : ∀ q x t dt w l, Reached (x, t) → ∃ q' w', st.init q x t dt (w, l) = .ok q' (w', l) ∧ R q' ∧ st.curState q' = x ∧ st.curTime q' = t ∧
    st.curDt q' = dt
  step : ∀ q w l, R q → 0 < σ * st.curDt q → σ * (st.curTime q + st.curDt q) ≤ T →
    (st.doStep q (w, l)).Sat
      (fun q' w' => w'.2 = l ∧ R q' ∧ Dense q' (st.curTime q) ∧ Acc (st.curState q, st.curTime q) (st.curState q', st.curTime q') ∧
        ∃ h, st.curTime q' = st.curTime q + h ∧ 0 < σ * h ∧ σ * h ≤ σ * st.curDt q ∧ (h = st.curDt q ∨ g ≤ σ * h) ∧ σ * h ≤ σ * st.curDt q')
      (fun e w' => w'.2 = l ∧ e = .stepAdjustment ∧ Fail) False
  interp : ∀ q lo τ w l, Dense q lo → σ * lo ≤ σ * τ → σ * τ ≤ σ * st.curTime q → ∃ y w', st.calcState q τ (w, l) = .ok y (w', l) ∧ Obs y τ

variable {st : DenseStepper Q (W × Log V ℝ) V ℝ} {R : Q → Prop} {Dense : Q → ℝ → Prop} {Reached : V × ℝ → Prop}
  {Acc : V × ℝ → V × ℝ → Prop} {Obs : V → ℝ → Prop} {Fail : Prop} {σ T g : ℝ}

theorem observations_snoc (m : Log V ℝ) (x : V) (t : ℝ) : Log.observations (m ++ [.obs x t]) = m.observations ++ [(x, t)] := by
  rw [observations_append]; rfl

theorem ceil_step {r h g : ℝ} (hg : 0 < g) (hr : 0 < r) (hh : r - h = 0 ∨ g ≤ h) : ⌈(r - h) / g⌉₊ < ⌈r / g⌉₊ := by
  have hceil : 0 < ⌈r / g⌉₊ := Nat.ceil_pos.2 (div_pos hr hg)
  rcases hh with h0 | h0
  · rw [h0, zero_div, Nat.ceil_zero]; exact hceil
  · have h1 : (r - h) / g ≤ r / g - 1 := by
      rw [sub_div]
      have : 1 ≤ h / g := (one_le_div hg).2 h0
      linarith
    have h2 := Nat.le_ceil (r / g)
    have h3 : ⌈(r - h) / g⌉₊ ≤ ⌈r / g⌉₊ - 1 := by
      rw [Nat.ceil_le, Nat.cast_sub hceil, Nat.cast_one]
      linarith
    omega

section Times
variable {dt : ℝ}

/-- what has been observed when `rest` remains -/
structure TimesSoFar (Obs : V → ℝ → Prop) (x0 : V) (t0 : ℝ) (times : List ℝ) (l : Log V ℝ) (rest : List ℝ) (x : V) (l1 : Log V ℝ) : Prop where
  log : ∃ l' obs, l1 = l ++ l' ∧ Log.observations l' = (x0, t0) :: obs ∧ obs.map Prod.snd ++ rest = times ∧ (∀ o ∈ obs, Obs o.1 o.2) ∧
    (Log.observations l').getLast?.map Prod.fst = some x

theorem TimesSoFar.observe {x0 : V} {t0 : ℝ} {times : List ℝ} {l : Log V ℝ} {τ : ℝ} {rest : List ℝ} {x y : V} {l1 : Log V ℝ}
    (h : TimesSoFar Obs x0 t0 times l (τ :: rest) x l1) (hy : Obs y τ) : TimesSoFar Obs x0 t0 times l rest y (l1 ++ [.obs y τ]) := by
  obtain ⟨l', obs, h1, h2, h3, h4, -⟩ := h.log
  refine ⟨l' ++ [.obs y τ], obs ++ [(y, τ)], by rw [h1, List.append_assoc], ?_, ?_, ?_, ?_⟩
  · rw [observations_snoc, h2]; rfl
  · rw [List.map_append, List.append_assoc, ← h3]; rfl
  · intro o ho
    rcases List.mem_append.1 ho with ho | ho
    · exact h4 o ho
    · rw [List.mem_singleton] at ho; subst ho; exact hy
  · rw [observations_snoc, List.getLast?_append]; rfl

theorem times_dense_run (hdt : dt ≠ 0) (hg : 0 < g) {x0 : V} {t0 : ℝ} {times : List ℝ}
    (hst : DenseFn st R Dense Reached Acc Obs Fail (dirSign dt) (dirSign dt * times.getLastD t0) g)
    (hmono : MonotoneTimes dt (t0 :: times)) (hlt : ∀ τ ∈ times, 0 < dirSign dt * (τ - t0)) (hgdt : g ≤ dirSign dt * dt)
    (h0 : Reached (x0, t0)) (q : Q) (w : W) (l : Log V ℝ) :
    (integrateTimesDense (TimeArith.exact ℝ 0) st recordObserver q x0 (t0 :: times) dt (w, l)).Sat
      (fun r w' => TimesSoFar Obs x0 t0 times l [] r.1 w'.2)
      (fun e w' => e = .stepAdjustment ∧ Fail ∧ ∃ rest x, TimesSoFar Obs x0 t0 times l rest x w'.2) False := by
  set σ := dirSign dt with hσ
  set last := times.getLastD t0 with hlast
  have hpos0 : 0 < σ * dt := (sameDir_iff hdt).1 (SameDir.refl hdt)
  have hdir : ∀ d : ℝ, 0 < σ * d → dirSign d = σ := fun d h => (dirSign_of_sameDir ((sameDir_iff hdt).2 h)).symm
  -- order of the requested times
  have hsorted : ∀ (τ : ℝ) (rest : List ℝ), (τ :: rest) <:+ times → (∀ τ' ∈ rest, σ * τ ≤ σ * τ') ∧ last ∈ τ :: rest := by
    intro τ rest hs
    refine ⟨fun τ' h' => ?_, ?_⟩
    · have h1 : MonotoneTimes dt (τ :: rest) := (hmono.sublist (List.sublist_cons_self _ _)).sublist hs.sublist
      have := MonotoneTimes.head_le h1 τ' h'
      rw [← hσ, mul_sub] at this
      linarith
    · rw [hlast, getLastD_of_suffix hs (by simp)]
      exact List.getLast_mem _
  -- the state at the head of the loops
  let J : DenseTimesState Q V ℝ → W × Log V ℝ → Prop := fun s w' => R s.q ∧ s.rest <:+ times ∧ TimesSoFar Obs x0 t0 times l s.rest s.x w'.2 ∧
    0 < σ * st.curDt s.q ∧ (s.rest ≠ [] → g ≤ σ * st.curDt s.q ∨ σ * (last - st.curTime s.q) = 0)
  let I : DenseTimesState Q V ℝ → W × Log V ℝ → Prop := fun s w' => J s w' ∧
    ((∀ τ ∈ s.rest, 0 < σ * (τ - st.curTime s.q)) ∨ ∃ lo, Dense s.q lo ∧ ∀ τ ∈ s.rest, 0 < σ * (τ - lo))
  unfold integrateTimesDense
  obtain ⟨q1, w1, e1, hR1, hx1, ht1, hd1⟩ := hst.init q x0 t0 dt w l h0
  dsimp only
  rw [M.bind_ok e1, M.bind_ok (recordObserver_ok _ _ _ _), ← hlast]
  have hI0 : I ⟨q1, x0, times, 0⟩ (w1, l ++ [.obs x0 t0]) := by
    refine ⟨⟨hR1, List.suffix_rfl, ⟨[.obs x0 t0], [], rfl, rfl, rfl, by simp, rfl⟩, ?_, fun _ => .inl ?_⟩, .inl fun τ hτ => ?_⟩
    · rw [hd1]; exact hpos0
    · rw [hd1]; exact hgdt
    · rw [ht1]; exact hlt τ hτ
  apply Res.Sat.bind
  refine (whileM_sat_total I (E := fun e w' => e = .stepAdjustment ∧ Fail ∧ ∃ rest x, TimesSoFar Obs x0 t0 times l rest x w'.2) (D := False)
    (fun s _ => if s.rest.isEmpty then 0 else 1 + ⌈σ * (last - st.curTime s.q) / g⌉₊) ?_ hI0).mono ?_ (fun _ _ h => h) id
  · rintro s ⟨w2, l2⟩ ⟨hJ, hrest⟩ hc
    have hne : s.rest ≠ [] := by simpa using hc
    have hnz : (if s.rest.isEmpty then 0 else 1 + ⌈σ * (last - st.curTime s.q) / g⌉₊) = 1 + ⌈σ * (last - st.curTime s.q) / g⌉₊ := by
      rw [if_neg (by simpa using hne)]
    rw [hnz]
    unfold denseTimesBody
    apply Res.Sat.bind
    -- the observations inside the last step
    refine (whileM_sat_total (fun s' w' => I s' w' ∧ s'.q = s.q)
      (E := fun e w' => e = .stepAdjustment ∧ Fail ∧ ∃ rest x, TimesSoFar Obs x0 t0 times l rest x w'.2) (D := False)
      (fun s' _ => s'.rest.length) ?_ ⟨⟨hJ, hrest⟩, rfl⟩).mono ?_ (fun _ _ h => h) id
    · rintro ⟨q', x', rest, n⟩ ⟨w3, l3⟩ ⟨⟨⟨hR, hsuf, hso, hdp, hprog⟩, hr⟩, hq⟩ hc'
      dsimp only at hR hsuf hso hdp hprog hr hq hc' ⊢
      cases rest with
      | nil => simp [headLessEq] at hc'
      | cons τ rest =>
        have hle : σ * (τ - st.curTime q') ≤ 0 := by
          have := (exact_lessEq _ _ _ _).1 (show (TimeArith.exact ℝ 0).lessEqWithSign τ (st.curTime q') (st.curDt q') = true from hc')
          rwa [hdir _ hdp] at this
        rcases hr with hr | ⟨lo, hD, hr⟩
        · exact absurd (hr τ (by simp)) (not_lt.2 hle)
        obtain ⟨y, w4, e4, hy⟩ := hst.interp q' lo τ w3 l3 hD (by have := hr τ (by simp); rw [mul_sub] at this; linarith)
          (by rw [mul_sub] at hle; linarith)
        simp only [denseTimesObserve]
        rw [M.bind_ok e4, M.bind_ok (recordObserver_ok _ _ _ _)]
        exact ⟨⟨⟨⟨hR, (List.suffix_cons _ _).trans hsuf, hso.observe hy, hdp, fun _ => hprog (by simp)⟩, .inr ⟨lo, hD, fun τ' h' => hr τ' (by simp [h'])⟩⟩, hq⟩,
          by simp⟩
    · rintro ⟨q', x', rest, n⟩ ⟨w3, l3⟩ ⟨⟨⟨⟨hR, hsuf, hso, hdp, hprog⟩, -⟩, hq⟩, hc'⟩
      dsimp only at hR hsuf hso hdp hprog hq hc' ⊢
      subst hq
      have hahead : ∀ τ ∈ rest, 0 < σ * (τ - st.curTime s.q) := by
        cases rest with
        | nil => simp
        | cons τ rest =>
          have hgt : 0 < σ * (τ - st.curTime s.q) := by
            have := (exact_lessEq_false _ _ _ _).1 (show (TimeArith.exact ℝ 0).lessEqWithSign τ (st.curTime s.q) (st.curDt s.q) = false from hc')
            rwa [hdir _ hdp] at this
          intro τ' h'
          rcases List.mem_cons.1 h' with rfl | h'
          · exact hgt
          · have := (hsorted τ rest hsuf).1 τ' h'
            rw [mul_sub] at hgt ⊢
            linarith
      have hlastpos : rest ≠ [] → 0 < σ * (last - st.curTime s.q) := by
        intro hne'
        cases rest with
        | nil => exact absurd rfl hne'
        | cons τ rest => exact hahead _ (hsorted τ rest hsuf).2
      -- after a step
      have hafter : ∀ (qa : Q) (wa : W) (la : Log V ℝ), R qa → st.curTime qa = st.curTime s.q → 0 < σ * st.curDt qa →
          σ * (st.curTime qa + st.curDt qa) ≤ σ * last → (rest ≠ [] → g ≤ σ * st.curDt qa ∨ st.curDt qa = last - st.curTime s.q) → la = l3 →
          ((st.doStep qa >>= fun q => (pure { q := q, x := x', rest := rest, count := n + 1 } : M (W × Log V ℝ) (DenseTimesState Q V ℝ))) (wa, la)).Sat
            (fun s' w' => I s' w' ∧ (if s'.rest.isEmpty then 0 else 1 + ⌈σ * (last - st.curTime s'.q) / g⌉₊) <
              1 + ⌈σ * (last - st.curTime s.q) / g⌉₊)
            (fun e w' => e = .stepAdjustment ∧ Fail ∧ ∃ rest x, TimesSoFar Obs x0 t0 times l rest x w'.2) False := by
        rintro qa wa la hRa hta hda hTa hga rfl
        apply Res.Sat.bind
        refine (hst.step qa wa la hRa hda hTa).mono ?_ ?_ id
        · rintro q5 ⟨w5, l5⟩ ⟨hl5, hR5, hD5, -, h, ht5, hh0, hhle, hhs, hd5⟩
          dsimp only at hl5
          subst hl5
          have hrem : σ * (last - st.curTime q5) = σ * (last - st.curTime s.q) - σ * h := by rw [ht5, hta]; ring
          have hbig : rest ≠ [] → σ * (last - st.curTime s.q) - σ * h = 0 ∨ g ≤ σ * h := by
            intro hne'
            rcases hhs with h' | h'
            · rcases hga hne' with h2 | h2
              · exact .inr (by rw [h']; exact h2)
              · exact .inl (by rw [h', h2]; ring)
            · exact .inr h'
          by_cases hne' : rest = []
          · subst hne'
            exact ⟨⟨⟨hR5, hsuf, hso, by linarith, fun h => absurd rfl h⟩, .inl (by simp)⟩, by simp⟩
          · refine ⟨⟨⟨hR5, hsuf, hso, by linarith, fun _ => ?_⟩, .inr ⟨_, hD5, fun τ hτ => by rw [hta]; exact hahead τ hτ⟩⟩, ?_⟩
            · rcases hbig hne' with h' | h'
              · right; dsimp only; rw [hrem]; exact h'
              · left; dsimp only; linarith
            · dsimp only
              rw [if_neg (by simpa using hne'), hrem]
              have := ceil_step hg (hlastpos hne') (hbig hne')
              omega
        · rintro e ⟨w5, l5⟩ ⟨hl5, he, hF⟩
          dsimp only at hl5
          subst hl5
          exact ⟨he, hF, rest, x', hso⟩
      split
      · rename_i hcond
        have hT : σ * (st.curTime s.q + st.curDt s.q) ≤ σ * last := by
          have := (exact_lessEq _ _ _ _).1 hcond
          rw [hdir _ hdp, mul_sub] at this
          have e : (TimeArith.exact ℝ 0).add (st.curTime s.q) (st.curDt s.q) = st.curTime s.q + st.curDt s.q := rfl
          rw [e] at this
          linarith
        refine hafter s.q w3 l3 hR rfl hdp hT (fun hne' => ?_) rfl
        rcases hprog hne' with h | h
        · exact .inl h
        · exact absurd (hlastpos hne') (by rw [h]; exact lt_irrefl 0)
      · split
        · rename_i hne'
          have hne' : rest ≠ [] := by simpa using hne'
          obtain ⟨q6, w6, e6, hR6, hx6, ht6, hd6⟩ := hst.init s.q (st.curState s.q) (st.curTime s.q) (last - st.curTime s.q) w3 l3 (hst.reached _ hR)
          have e6' : st.init s.q (st.curState s.q) (st.curTime s.q) ((TimeArith.exact ℝ 0).sub last (st.curTime s.q)) (w3, l3) = .ok q6 (w6, l3) := e6
          rw [M.bind_ok e6']
          refine hafter q6 w6 l3 hR6 ht6 (by rw [hd6]; exact hlastpos hne') ?_ (fun _ => .inr hd6) rfl
          rw [ht6, hd6, add_sub_cancel]
        · rename_i hne'
          have hne' : rest = [] := by simpa using hne'
          subst hne'
          exact ⟨⟨⟨hR, hsuf, hso, hdp, hprog⟩, .inl (by simp)⟩, by simp⟩
  · rintro s ⟨w2, l2⟩ ⟨⟨⟨hR, hsuf, hso, -⟩, -⟩, hc⟩
    have : s.rest = [] := by simpa using hc
    rw [this] at hso
    exact hso

end Times

section Adaptive
variable {dt : ℝ}

/-- what has been observed when the state and time `a` are reached after `n` steps -/
structure StepsSoFar (Acc : V × ℝ → V × ℝ → Prop) (start : V × ℝ) (l : Log V ℝ) (a : V × ℝ) (n : ℕ) (l1 : Log V ℝ) : Prop where
  log : ∃ l', l1 = l ++ l' ∧ (Log.observations l' ++ [a]).IsChain Acc ∧ (Log.observations l' ++ [a]).head? = some start ∧
    (Log.observations l').length = n

theorem StepsSoFar.observe {start : V × ℝ} {l : Log V ℝ} {a b : V × ℝ} {n : ℕ} {l1 : Log V ℝ} (h : StepsSoFar Acc start l a n l1)
    (hab : Acc a b) : StepsSoFar Acc start l b (n + 1) (l1 ++ [.obs a.1 a.2]) := by
  obtain ⟨l', h1, h2, h3, h4⟩ := h.log
  refine ⟨l' ++ [.obs a.1 a.2], by rw [h1, List.append_assoc], ?_, ?_, ?_⟩
  · rw [observations_snoc, List.isChain_append]
    refine ⟨h2, List.isChain_singleton _, ?_⟩
    intro u hu v hv
    simp only [List.getLast?_append, List.getLast?_singleton, Option.some_or, Option.mem_def, Option.some.injEq, List.head?_cons] at hu hv
    subst hu hv
    exact hab
  · rw [observations_snoc, List.head?_append, h3]; rfl
  · rw [observations_snoc, List.length_append, h4]; rfl

/-- all observations, including the last one -/
structure StepsDone (Acc : V × ℝ → V × ℝ → Prop) (start : V × ℝ) (l : Log V ℝ) (a : V × ℝ) (n : ℕ) (l1 : Log V ℝ) : Prop where
  log : ∃ l', l1 = l ++ l' ∧ (Log.observations l').IsChain Acc ∧ (Log.observations l').head? = some start ∧
    (Log.observations l').getLast? = some a ∧ (Log.observations l').length = n + 1

theorem StepsSoFar.done {start : V × ℝ} {l : Log V ℝ} {a : V × ℝ} {n : ℕ} {l1 : Log V ℝ} (h : StepsSoFar Acc start l a n l1) :
    StepsDone Acc start l a n (l1 ++ [.obs a.1 a.2]) := by
  obtain ⟨l', h1, h2, h3, h4⟩ := h.log
  refine ⟨l' ++ [.obs a.1 a.2], by rw [h1, List.append_assoc], ?_, ?_, ?_, ?_⟩
  · rw [observations_snoc]; exact h2
  · rw [observations_snoc]; exact h3
  · rw [observations_snoc, List.getLast?_append]; rfl
  · rw [observations_snoc, List.length_append, h4]; rfl

theorem adaptive_dense_run (hdt : dt ≠ 0) (hg : 0 < g) {x0 : V} {t0 t1 : ℝ}
    (hst : DenseFn st R Dense Reached Acc Obs Fail (dirSign dt) (dirSign dt * t1) g) (h01 : 0 ≤ dirSign dt * (t1 - t0)) (hgdt : g ≤ dirSign dt * dt)
    (h0 : Reached (x0, t0)) (q : Q) (w : W) (l : Log V ℝ) :
    (integrateAdaptiveDense (TimeArith.exact ℝ 0) st recordObserver q x0 t0 t1 dt (w, l)).Sat
      (fun r w' => StepsDone Acc (x0, t0) l (r.1, t1) r.2 w'.2)
      (fun e w' => e = .stepAdjustment ∧ Fail ∧ ∃ a n, StepsDone Acc (x0, t0) l a n w'.2) False := by
  set σ := dirSign dt with hσ
  have hσ1 : σ = 1 ∨ σ = -1 := by rw [hσ]; unfold dirSign; split <;> simp
  have hpos0 : 0 < σ * dt := (sameDir_iff hdt).1 (SameDir.refl hdt)
  have hdir : ∀ d : ℝ, 0 < σ * d → dirSign d = σ := fun d h => (dirSign_of_sameDir ((sameDir_iff hdt).2 h)).symm
  let rem : Q → ℝ := fun q => σ * (t1 - st.curTime q)
  let J : Q × ℕ → W × Log V ℝ → Prop := fun p w' => R p.1 ∧ 0 ≤ rem p.1 ∧ StepsSoFar Acc (x0, t0) l (st.curState p.1, st.curTime p.1) p.2 w'.2
  let O : Q × ℕ → W × Log V ℝ → Prop := fun p w' => J p w' ∧
    (rem p.1 = 0 ∨ 0 < σ * st.curDt p.1 ∧ (g ≤ σ * st.curDt p.1 ∨ st.curDt p.1 = t1 - st.curTime p.1))
  let I : Q × ℕ → W × Log V ℝ → Prop := fun p w' => J p w' ∧ 0 < σ * st.curDt p.1 ∧
    (rem p.1 = 0 ∨ g ≤ σ * st.curDt p.1 ∨ st.curDt p.1 = t1 - st.curTime p.1)
  let E : Err → W × Log V ℝ → Prop := fun e w' => e = .stepAdjustment ∧ Fail ∧ ∃ a n, StepsDone Acc (x0, t0) l a n w'.2
  let flag : Q → ℕ := fun q => if σ * (st.curTime q + st.curDt q - t1) ≤ 0 then 0 else 1
  unfold integrateAdaptiveDense
  obtain ⟨q1, w1, e1, hR1, hx1, ht1, hd1⟩ := hst.init q x0 t0 dt w l h0
  rw [M.bind_ok e1]
  have hO : O (q1, 0) (w1, l) := by
    refine ⟨⟨hR1, ?_, [], by simp, by simp [Log.observations], ?_, rfl⟩, .inr ⟨?_, .inl ?_⟩⟩
    · show 0 ≤ σ * (t1 - st.curTime q1)
      rw [ht1]; exact h01
    · show some (st.curState q1, st.curTime q1) = _
      rw [hx1, ht1]
    · show 0 < σ * st.curDt q1
      rw [hd1]; exact hpos0
    · show g ≤ σ * st.curDt q1
      rw [hd1]; exact hgdt
  apply Res.Sat.bind
  refine (whileM_sat_total O (E := E) (D := False) (fun p _ => 2 * ⌈rem p.1 / g⌉₊ + flag p.1) ?_ hO).mono ?_ (fun _ _ h => h) id
  · rintro ⟨q2, n2⟩ ⟨w2, l2⟩ ⟨hJ, hO⟩ hc
    dsimp only at hO hc ⊢
    have hlt := (exact_less _ _ _ _).1 hc
    have hr0 : rem q2 ≠ 0 := by
      intro h
      have h' : σ * (t1 - st.curTime q2) = 0 := h
      have : t1 - st.curTime q2 = 0 := by rcases hσ1 with h2 | h2 <;> rw [h2] at h' <;> linarith
      rw [this, mul_zero] at hlt
      exact lt_irrefl _ hlt
    obtain ⟨hdp, hpr⟩ := hO.resolve_left hr0
    apply Res.Sat.bind
    refine (whileM_sat_total (fun p w' => I p w' ∧ (p.1 = q2 ∨ ⌈rem p.1 / g⌉₊ < ⌈rem q2 / g⌉₊)) (E := E) (D := False)
      (fun p _ => ⌈rem p.1 / g⌉₊) ?_ ⟨⟨hJ, hdp, .inr hpr⟩, .inl rfl⟩).mono ?_ (fun _ _ h => h) id
    · rintro ⟨q3, n3⟩ ⟨w3, l3⟩ ⟨⟨⟨hR, hrem, hso⟩, hdp, hpr⟩, hq⟩ hc'
      dsimp only at hR hrem hso hdp hpr hq hc' ⊢
      have hle := (exact_lessEq _ _ _ _).1 hc'
      rw [hdir _ hdp, mul_sub] at hle
      have hle' : σ * (st.curTime q3 + st.curDt q3) ≤ σ * t1 := by
        have e : (TimeArith.exact ℝ 0).add (st.curTime q3) (st.curDt q3) = st.curTime q3 + st.curDt q3 := rfl
        rw [e] at hle
        linarith
      have hrpos : 0 < rem q3 := by
        show 0 < σ * (t1 - st.curTime q3)
        rw [mul_add] at hle'; rw [mul_sub]; linarith
      rw [M.bind_ok (recordObserver_ok _ _ _ _)]
      apply Res.Sat.bind
      refine (hst.step q3 w3 _ hR hdp hle').mono ?_ ?_ id
      · rintro q5 ⟨w5, l5⟩ ⟨hl5, hR5, -, hacc, h, ht5, hh0, hhle, hhs, hd5⟩
        dsimp only at hl5
        subst hl5
        have hnew : rem q5 = rem q3 - σ * h := by
          show σ * (t1 - st.curTime q5) = σ * (t1 - st.curTime q3) - σ * h
          rw [ht5]; ring
        have hbig : rem q3 - σ * h = 0 ∨ g ≤ σ * h := by
          rcases hhs with h' | h'
          · rcases hpr with h2 | h2 | h2
            · exact absurd h2 hrpos.ne'
            · exact .inr (by rw [h']; exact h2)
            · left
              show σ * (t1 - st.curTime q3) - σ * h = 0
              rw [h', h2]; ring
          · exact .inr h'
        have hdec := ceil_step hg hrpos hbig
        rw [← hnew] at hdec
        refine ⟨⟨⟨⟨hR5, ?_, hso.observe hacc⟩, by dsimp only; linarith, ?_⟩, ?_⟩, hdec⟩
        · show 0 ≤ rem q5
          rw [hnew]
          show 0 ≤ σ * (t1 - st.curTime q3) - σ * h
          rw [mul_add] at hle'; rw [mul_sub]; linarith
        · show rem q5 = 0 ∨ g ≤ σ * st.curDt q5 ∨ _
          rcases hbig with h' | h'
          · left; rw [hnew]; exact h'
          · right; left; linarith
        · right
          show ⌈rem q5 / g⌉₊ < _
          rcases hq with rfl | hq
          · exact hdec
          · exact hdec.trans hq
      · rintro e ⟨w5, l5⟩ ⟨hl5, he, hF⟩
        dsimp only at hl5
        subst hl5
        exact ⟨he, hF, _, _, hso.done⟩
    · rintro ⟨q3, n3⟩ ⟨w3, l3⟩ ⟨⟨⟨⟨hR, hrem, hso⟩, hdp, hpr⟩, hq⟩, hc'⟩
      dsimp only at hR hrem hso hdp hpr hq hc' ⊢
      have hgt := (exact_lessEq_false _ _ _ _).1 hc'
      rw [hdir _ hdp] at hgt
      obtain ⟨q6, w6, e6, hR6, hx6, ht6, hd6⟩ := hst.init q3 (st.curState q3) (st.curTime q3) (t1 - st.curTime q3) w3 l3 (hst.reached _ hR)
      have e6' : st.init q3 (st.curState q3) (st.curTime q3) ((TimeArith.exact ℝ 0).sub t1 (st.curTime q3)) (w3, l3) = .ok q6 (w6, l3) := e6
      rw [M.bind_ok e6']
      have hrem6 : rem q6 = rem q3 := by
        show σ * (t1 - st.curTime q6) = σ * (t1 - st.curTime q3)
        rw [ht6]
      refine ⟨⟨⟨hR6, ?_, ?_⟩, ?_⟩, ?_⟩
      · show 0 ≤ rem q6
        rw [hrem6]; exact hrem
      · dsimp only
        rw [hx6, ht6]; exact hso
      · rcases hrem.eq_or_lt with h | h
        · left; exact hrem6.trans h.symm
        · right
          refine ⟨?_, .inr ?_⟩
          · show 0 < σ * st.curDt q6
            rw [hd6]; exact h
          · show st.curDt q6 = t1 - st.curTime q6
            rw [hd6, ht6]
      · show 2 * ⌈rem q6 / g⌉₊ + flag q6 < 2 * ⌈rem q2 / g⌉₊ + flag q2
        have hf6 : flag q6 = 0 := by
          show (if σ * (st.curTime q6 + st.curDt q6 - t1) ≤ 0 then 0 else 1) = 0
          rw [hd6, ht6, add_sub_cancel, sub_self, mul_zero, if_pos le_rfl]
        rw [hrem6, hf6]
        rcases hq with rfl | hq
        · have hf3 : flag q3 = 1 := if_neg (not_le.2 hgt)
          omega
        · omega
  · rintro ⟨q2, n2⟩ ⟨w2, l2⟩ ⟨⟨⟨hR, hrem, hso⟩, hO⟩, hc⟩
    dsimp only at hR hrem hso hO hc ⊢
    have hle := (exact_less_false _ _ _ _).1 hc
    rw [M.bind_ok (recordObserver_ok _ _ _ _)]
    have hz : rem q2 = 0 := by
      rcases hO with h | ⟨h, -⟩
      · exact h
      · rw [hdir _ h] at hle
        exact le_antisymm hle hrem
    have ht : st.curTime q2 = t1 := by
      have h' : σ * (t1 - st.curTime q2) = 0 := hz
      rcases hσ1 with h2 | h2 <;> rw [h2] at h' <;> linarith
    have := hso.done
    rw [ht] at this ⊢
    exact this

end Adaptive

end Verif
