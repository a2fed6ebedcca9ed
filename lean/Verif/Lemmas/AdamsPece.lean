import Verif.Lemmas.AdaptiveAdams
import Verif.Lemmas.AdamsTable
import Verif.Lemmas.BulirschStoerDensePrep
import Verif.Lemmas.Neville

/-!
# What the coefficients of `adaptive_adams_coefficients` mean
-/

namespace Verif
set_option linter.unusedSectionVars false
variable {V E W A : Type} [AddCommGroup V] [Module ℝ V]

/-- the numbers that never change -/
structure AdamsConst (N : ℕ) (C : AdamsCoef ℝ V) : Prop where
  beta0 : C.beta 0 0 = 1
  beta1 : C.beta 1 0 = 1
  c0 : ∀ q < N + 2, C.c q = 1 / ((q : ℝ) + 1)
  c1 : ∀ q < N + 2, C.c (N + 2 + q) = 1 / (((q : ℝ) + 1) * ((q : ℝ) + 2))
  g0 : C.g 0 = 1
  g1 : C.g 1 = 1 / 2

theorem construct_const (N : ℕ) (m : AdamsCoef ℝ V) : AdamsConst N (m.construct N) := by
  refine ⟨?_, ?_, ?_, ?_, ?_, ?_⟩
  · simp [AdamsCoef.construct, lit]
  · simp [AdamsCoef.construct, lit]
  · intro q hq
    show (if q < N + 2 then _ else _) = _
    rw [if_pos hq]
    simp [lit]
  · intro q hq
    show (if N + 2 + q < N + 2 then _ else if N + 2 + q < N + 2 + (N + 2) then _ else _) = _
    rw [if_neg (by omega), if_pos (by omega)]
    simp [lit]
  · simp [AdamsCoef.construct, lit]
  · simp [AdamsCoef.construct, lit]

theorem row_ne {n i j l q : ℕ} (hl : l < i) (hq : q < n) : n * l + q ≠ n * i + j := by
  have : n * (l + 1) ≤ n * i := Nat.mul_le_mul_left _ hl
  rw [Nat.mul_add] at this
  omega

theorem betaStep_eq {N i : ℕ} (dt : ℝ) (C : AdamsCoef ℝ V) (h : 1 ≤ i ∧ i < N + 1) :
    betaStep N dt i C = .ok () (C.setBeta 0 i (C.beta 0 (i - 1) * (C.time 0 + dt - C.time (i - 1)) / (C.time 0 - C.time i))) := by
  unfold betaStep; rw [M.bind_ok (chk_ok h _)]; rfl

theorem cStep_eq {N i j : ℕ} (dt : ℝ) (C : AdamsCoef ℝ V)
    (h : 1 ≤ i ∧ i - 1 < N + 1 ∧ (N + 2) * i + j < (N + 2) * (N + 2) ∧ (N + 2) * (i - 1) + j + 1 < (N + 2) * (N + 2)) :
    cStep N dt i j C = .ok () (C.setC ((N + 2) * i + j)
      (C.c ((N + 2) * (i - 1) + j) - C.c ((N + 2) * (i - 1) + j + 1) * dt / (C.time 0 + dt - C.time (i - 1)))) := by
  unfold cStep; rw [M.bind_ok (chk_ok h _)]; rfl

theorem gStep_eq {N i : ℕ} (C : AdamsCoef ℝ V) (h : i < N + 2) : gStep N i C = .ok () (C.setG i (C.c ((N + 2) * i))) := by
  unfold gStep; rw [M.bind_ok (chk_ok h _)]; rfl

theorem phiStep_eq {N o i : ℕ} (C : AdamsCoef ℝ V) (h : 1 ≤ i ∧ i < N + 2 ∧ (o = 0 → i - 1 < N + 1) ∧ o < 3) :
    phiStep N o i C = .ok () (C.setPhi o i
      (if o = 0 then lin [((lit 1 : ℝ), C.phi o (i - 1)), (-(C.beta o (i - 1)), C.phi (o + 1) (i - 1))]
        else lin [((lit 1 : ℝ), C.phi o (i - 1))])) := by
  unfold phiStep; rw [M.bind_ok (chk_ok h _)]; rfl

/-- what `predict` leaves alone -/
structure AdamsKept (N : ℕ) (t : ℝ) (C C' : AdamsCoef ℝ V) : Prop where
  count : SameCount C C'
  const : AdamsConst N C'
  phi : C'.phi = C.phi
  time0 : C'.time 0 = t
  time : ∀ j, 1 ≤ j → C'.time j = C.time j

/-- `predict` computes the coefficients of the step. -/
theorem adamsPredict_values (N : ℕ) (O : NumOps ℝ) (t dt : ℝ) (C : AdamsCoef ℝ V) (h : AdamsInv N C) (hc : AdamsConst N C) (τ : ℕ → ℝ)
    (h0 : τ 0 = t) (ht : ∀ j, 1 ≤ j → j < C.stepsInit → C.time j = τ j) (hne : ∀ j < C.stepsInit, t + dt ≠ τ j) :
    ∃ C', adamsPredict N O t dt C = .ok () C' ∧ AdamsKept N t C C' ∧
      (∀ i < min (C.eo + 1) C.stepsInit, C'.beta 0 i = adamsBeta τ (t + dt) i) ∧
      (∀ i < min (C.eo + 2) (C.stepsInit + 1), C'.g i = adamsC τ t dt i 0) := by
  have hp := h.pos
  have hl := h.le
  have hh := h.hist
  have hcap := h.cap
  have hn := h.ns
  have hdt : dt ≠ 0 := by
    have := hne 0 (by omega)
    rw [h0] at this
    intro h
    exact this (by rw [h, add_zero])
  have e1 : AdamsCoef.countEqual N O dt (C.setTime 0 t) = (C.setTime 0 t).setNs 0 := by
    unfold AdamsCoef.countEqual
    rw [if_pos]
    right
    show C.ns ≤ C.eo
    omega
  unfold adamsPredict
  rw [M.bind_ok (chk_ok (by omega) _), M.bind_ok (modify_ok _ _), M.bind_ok (modify_ok _ _), e1]
  have k0 : AdamsKept N t C ((C.setTime 0 t).setNs 0) :=
    ⟨⟨rfl, rfl, hn.symm⟩, ⟨hc.beta0, hc.beta1, hc.c0, hc.c1, hc.g0, hc.g1⟩, rfl, by simp [AdamsCoef.setTime, AdamsCoef.setNs],
      fun j hj => by show (if j = 0 then t else C.time j) = _; exact if_neg (by omega)⟩
  generalize (C.setTime 0 t).setNs 0 = C0 at k0 ⊢
  rw [M.bind_ok (m := M.get) (w' := C0) (a := C0) rfl]
  rw [k0.count.eo, k0.count.stepsInit, k0.count.ns, hn]
  have htime : ∀ C' : AdamsCoef ℝ V, AdamsKept N t C C' → ∀ j < C.stepsInit, C'.time j = τ j := by
    intro C' hk j hj
    rcases Nat.eq_zero_or_pos j with rfl | hj0
    · rw [hk.time0, h0]
    · rw [hk.time j hj0, ht j hj0 hj]
  obtain ⟨C1, f1, k1, b1⟩ := forUp_inv (fun i C' => AdamsKept N t C C' ∧ ∀ l < i, C'.beta 0 l = adamsBeta τ (t + dt) l)
    (1 + 0) (min (C.eo + 1) C.stepsInit) (by omega) (body := betaStep N dt)
    (by
      rintro i s hlo hhi ⟨hk, hb⟩
      refine ⟨_, betaStep_eq dt s (by omega), ⟨⟨hk.count.eo, hk.count.stepsInit, hk.count.ns⟩, ⟨?_, ?_, hk.const.c0, hk.const.c1, hk.const.g0, hk.const.g1⟩, hk.phi, hk.time0, hk.time⟩, ?_⟩
      · show (if 0 = 0 ∧ 0 = i then _ else s.beta 0 0) = 1
        rw [if_neg (by omega)]; exact hk.const.beta0
      · simp only [AdamsCoef.setBeta, one_ne_zero, false_and, if_false]
        exact hk.const.beta1
      · intro l hl'
        show (if 0 = 0 ∧ l = i then _ else s.beta 0 l) = _
        by_cases hli : l = i
        · subst hli
          rw [if_pos ⟨rfl, rfl⟩, hb (l - 1) (by omega), htime s hk 0 (by omega), htime s hk (l - 1) (by omega), htime s hk l (by omega)]
          obtain ⟨m, rfl⟩ : ∃ m, l = m + 1 := ⟨l - 1, by omega⟩
          rw [adamsBeta_succ, h0]
          rfl
        · rw [if_neg (by tauto)]
          exact hb l (by omega)) C0
    ⟨k0, by
      intro l hl'
      obtain rfl : l = 0 := by omega
      rw [k0.const.beta0, adamsBeta_zero]⟩
  rw [M.bind_ok f1]
  obtain ⟨C2, f2, k2, b2, -, g2⟩ := forUp_inv (fun i C' => AdamsKept N t C C' ∧
      (∀ l < min (C.eo + 1) C.stepsInit, C'.beta 0 l = adamsBeta τ (t + dt) l) ∧
      (∀ l < i, ∀ q, q + l ≤ C.eo + 1 → C'.c ((N + 2) * l + q) = adamsC τ t dt l q) ∧ (∀ l < i, C'.g l = adamsC τ t dt l 0))
    (2 + 0) (min (C.eo + 2) (C.stepsInit + 1)) (by omega) (body := fun i => do forUp 0 (C.eo + 1 - i + 1) (cStep N dt i); gStep N i)
    (by
      rintro i s hlo hhi ⟨hk, hb, hcc, hg⟩
      obtain ⟨s1, g1, k1', b1', cc1, gg1, row1⟩ := forUp_inv (fun j C' => AdamsKept N t C C' ∧
          (∀ l < min (C.eo + 1) C.stepsInit, C'.beta 0 l = adamsBeta τ (t + dt) l) ∧
          (∀ l < i, ∀ q, q + l ≤ C.eo + 1 → C'.c ((N + 2) * l + q) = adamsC τ t dt l q) ∧ (∀ l < i, C'.g l = adamsC τ t dt l 0) ∧
          (∀ q < j, C'.c ((N + 2) * i + q) = adamsC τ t dt i q))
        0 (C.eo + 1 - i + 1) (by omega) (body := cStep N dt i)
        (by
          rintro j s' - hj ⟨hk', hb', hcc', hg', hr'⟩
          have hrow := mul_row_lt (n := N + 2) (i := i - 1) (j := j + 1) (by omega) (by omega)
          have hkeep : ∀ l < i, ∀ q, q < N + 2 → ∀ v, (s'.setC ((N + 2) * i + j) v).c ((N + 2) * l + q) = s'.c ((N + 2) * l + q) := by
            intro l hl' q hq v
            show (if (N + 2) * l + q = (N + 2) * i + j then v else s'.c ((N + 2) * l + q)) = _
            rw [if_neg (row_ne hl' hq)]
          refine ⟨_, cStep_eq dt s' ⟨by omega, by omega, mul_row_lt (by omega) (by omega), hrow⟩,
            ⟨⟨hk'.count.eo, hk'.count.stepsInit, hk'.count.ns⟩, ⟨hk'.const.beta0, hk'.const.beta1, ?_, ?_, hk'.const.g0, hk'.const.g1⟩, hk'.phi, hk'.time0, hk'.time⟩, hb', ?_, hg', ?_⟩
          · intro q hq
            have := hkeep 0 (by omega) q hq
              (s'.c ((N + 2) * (i - 1) + j) - s'.c ((N + 2) * (i - 1) + j + 1) * dt / (s'.time 0 + dt - s'.time (i - 1)))
            simp only [Nat.mul_zero, Nat.zero_add] at this
            rw [this]
            exact hk'.const.c0 q hq
          · intro q hq
            have := hkeep 1 (by omega) q hq
              (s'.c ((N + 2) * (i - 1) + j) - s'.c ((N + 2) * (i - 1) + j + 1) * dt / (s'.time 0 + dt - s'.time (i - 1)))
            simp only [Nat.mul_one] at this
            rw [this]
            exact hk'.const.c1 q hq
          · intro l hl' q hq
            rw [hkeep l hl' q (by omega)]
            exact hcc' l hl' q hq
          · intro q hq
            show (if (N + 2) * i + q = (N + 2) * i + j then _ else s'.c ((N + 2) * i + q)) = _
            by_cases hqj : q = j
            · subst hqj
              rw [if_pos rfl, hcc' (i - 1) (by omega) q (by omega), show (N + 2) * (i - 1) + q + 1 = (N + 2) * (i - 1) + (q + 1) by omega,
                hcc' (i - 1) (by omega) (q + 1) (by omega), htime s' hk' 0 (by omega), htime s' hk' (i - 1) (by omega)]
              obtain ⟨m, rfl⟩ : ∃ m, i = m + 1 := ⟨i - 1, by omega⟩
              rw [adamsC_succ τ t dt m q (sub_ne_zero.2 (hne m (by omega))), h0]
              rfl
            · rw [if_neg (by omega)]
              exact hr' q (by omega)) s
        ⟨hk, hb, hcc, hg, fun q hq => absurd hq (by omega)⟩
      refine ⟨_, (M.bind_ok g1 _).trans (gStep_eq s1 (by omega)),
        ⟨⟨k1'.count.eo, k1'.count.stepsInit, k1'.count.ns⟩, ⟨k1'.const.beta0, k1'.const.beta1, k1'.const.c0, k1'.const.c1, ?_, ?_⟩, k1'.phi, k1'.time0, k1'.time⟩, b1', ?_, ?_⟩
      · show (if 0 = i then _ else s1.g 0) = 1
        rw [if_neg (by omega)]; exact k1'.const.g0
      · show (if 1 = i then _ else s1.g 1) = 1 / 2
        rw [if_neg (by omega)]; exact k1'.const.g1
      · intro l hl' q hq
        by_cases hli : l = i
        · subst hli; exact row1 q (by omega)
        · exact cc1 l (by omega) q hq
      · intro l hl'
        show (if l = i then s1.c ((N + 2) * i) else s1.g l) = _
        by_cases hli : l = i
        · subst hli; rw [if_pos rfl]; exact row1 0 (by omega)
        · rw [if_neg hli]; exact gg1 l (by omega)) C1
    ⟨k1, b1, by
      intro l hl' q hq
      obtain rfl | rfl : l = 0 ∨ l = 1 := by omega
      · rw [Nat.mul_zero, Nat.zero_add, k1.const.c0 q (by omega), adamsC_zero]
      · rw [Nat.mul_one, k1.const.c1 q (by omega), adamsC_one τ t dt q h0 hdt], by
      intro l hl'
      obtain rfl | rfl : l = 0 ∨ l = 1 := by omega
      · rw [k1.const.g0, adamsC_zero]; norm_num
      · rw [k1.const.g1, adamsC_one τ t dt 0 h0 hdt]; norm_num⟩
  exact ⟨C2, f2, k2, b2, g2⟩

/-- what `do_step` of the coefficients leaves alone -/
structure AdamsKeptPhi (o : ℕ) (C C' : AdamsCoef ℝ V) : Prop where
  count : SameCount C C'
  beta : C'.beta = C.beta
  c : C'.c = C.c
  g : C'.g = C.g
  time : C'.time = C.time
  phi : ∀ o' ≠ o, C'.phi o' = C.phi o'

theorem AdamsKeptPhi.const {N o : ℕ} {C C' : AdamsCoef ℝ V} (h : AdamsKeptPhi o C C') (hc : AdamsConst N C) : AdamsConst N C' := by
  obtain ⟨-, hb, hcc, hg, -, -⟩ := h
  refine ⟨?_, ?_, ?_, ?_, ?_, ?_⟩
  · rw [hb]; exact hc.beta0
  · rw [hb]; exact hc.beta1
  · rw [hcc]; exact hc.c0
  · rw [hcc]; exact hc.c1
  · rw [hg]; exact hc.g0
  · rw [hg]; exact hc.g1

theorem adamsUpdate_values (N : ℕ) (d : V) (o : ℕ) (ho : o < 2) (C : AdamsCoef ℝ V) (h1 : 1 ≤ min (min (C.eo + 3) (C.stepsInit + 2)) (N + 2)) :
    ∃ C', adamsUpdate N d o C = .ok () C' ∧ AdamsKeptPhi o C C' ∧ C'.phi o 0 = d ∧
      (o = 0 → ∀ i, i + 1 < min (min (C.eo + 3) (C.stepsInit + 2)) (N + 2) → C'.phi 0 (i + 1) = C'.phi 0 i - C.beta 0 i • C.phi 1 i) := by
  unfold adamsUpdate
  rw [M.bind_ok (modify_ok _ _)]
  have k0 : AdamsKeptPhi o C (C.setPhi o 0 d) :=
    ⟨⟨rfl, rfl, rfl⟩, rfl, rfl, rfl, rfl, fun o' h => funext fun i => if_neg (by tauto)⟩
  have p0 : (C.setPhi o 0 d).phi o 0 = d := if_pos ⟨rfl, rfl⟩
  generalize C.setPhi o 0 d = C0 at k0 p0 ⊢
  rw [M.bind_ok (m := M.get) (w' := C0) (a := C0) rfl, k0.count.eo, k0.count.stepsInit]
  obtain ⟨C1, f1, k1, p1, q1⟩ := forUp_inv (fun n C' => AdamsKeptPhi o C C' ∧ C'.phi o 0 = d ∧
      (o = 0 → ∀ i, i + 1 < n → C'.phi 0 (i + 1) = C'.phi 0 i - C.beta 0 i • C.phi 1 i))
    1 (min (min (C.eo + 3) (C.stepsInit + 2)) (N + 2)) h1 (body := phiStep N o)
    (by
      rintro n s hlo hhi ⟨hk, hp, hq⟩
      refine ⟨_, phiStep_eq s (by omega),
        ⟨⟨hk.count.eo, hk.count.stepsInit, hk.count.ns⟩, hk.beta, hk.c, hk.g, hk.time, ?_⟩, ?_, ?_⟩
      · intro o' ho'
        funext i
        show (if o' = o ∧ i = n then _ else s.phi o' i) = _
        rw [if_neg (by tauto), hk.phi o' ho']
      · show (if o = o ∧ 0 = n then _ else s.phi o 0) = _
        rw [if_neg (by omega), hp]
      · rintro rfl i hi
        show (if 0 = 0 ∧ i + 1 = n then _ else s.phi 0 (i + 1)) = (if 0 = 0 ∧ i = n then _ else s.phi 0 i) - _
        rw [if_neg (show ¬ (0 = 0 ∧ i = n) by omega)]
        by_cases hin : i + 1 = n
        · rw [if_pos ⟨rfl, hin⟩, if_pos rfl, ← hin]
          rw [show i + 1 - 1 = i by omega, lin_pair, hk.beta, show (0 + 1 : ℕ) = 1 from rfl, hk.phi 1 (by omega)]
          simp only [lit]
          push_cast
          module
        · rw [if_neg (by tauto)]
          exact hq rfl i (by omega)) C0 ⟨k0, p0, fun _ i hi => absurd hi (by omega)⟩
  exact ⟨C1, f1, k1, p1, q1⟩

/-! ## The history -/

/-- The memory between two steps: it remembers the history `h` of (at least) `stepsInit` points, the first of which is the current point. -/
structure AdamsMem (N : ℕ) (C : AdamsCoef ℝ V) (h : ℕ → ℝ × V) (v : ℕ) : Prop where
  inv : AdamsInv N C
  const : AdamsConst N C
  time : ∀ j, 1 ≤ j → j < C.stepsInit → C.time j = (h j).1
  table : TableValid (fun j => (h j).1) (fun j => (h j).2) v (C.phi 1)

/-- The memory in the middle of a step with step size `dt`. -/
structure AdamsMid (N : ℕ) (C : AdamsCoef ℝ V) (h : ℕ → ℝ × V) (dt : ℝ) (v : ℕ) : Prop where
  mem : AdamsMem N C h v
  time0 : C.time 0 = (h 0).1
  beta : ∀ i < min (C.eo + 1) C.stepsInit, C.beta 0 i = adamsBeta (fun j => (h j).1) ((h 0).1 + dt) i
  g : ∀ i < min (C.eo + 2) (C.stepsInit + 1), C.g i = adamsC (fun j => (h j).1) (h 0).1 dt i 0

theorem AdamsMid.update {N : ℕ} {C C' : AdamsCoef ℝ V} {h : ℕ → ℝ × V} {dt : ℝ} {v : ℕ} (hm : AdamsMid N C h dt v) (hk : AdamsKeptPhi 0 C C') :
    AdamsMid N C' h dt v := by
  refine ⟨⟨hm.mem.inv.same hk.count, hk.const hm.mem.const, ?_, ?_⟩, ?_, ?_, ?_⟩
  · rw [hk.time, hk.count.stepsInit]; exact hm.mem.time
  · rw [hk.phi 1 (by omega)]; exact hm.mem.table
  · rw [hk.time]; exact hm.time0
  · rw [hk.beta, hk.count.stepsInit, hk.count.eo]; exact hm.beta
  · rw [hk.g, hk.count.stepsInit, hk.count.eo]; exact hm.g

theorem times_push (a : ℝ × V) (h : ℕ → ℝ × V) : (fun j => (push a h j).1) = push a.1 fun j => (h j).1 := by
  funext j; cases j <;> rfl
theorem derivs_push (a : ℝ × V) (h : ℕ → ℝ × V) : (fun j => (push a h j).2) = push a.2 fun j => (h j).2 := by
  funext j; cases j <;> rfl

/-- `predict` in front of a step -/
theorem AdamsMem.predict {N : ℕ} {C : AdamsCoef ℝ V} {h : ℕ → ℝ × V} {v : ℕ} (hm : AdamsMem N C h v) (O : NumOps ℝ) (t dt : ℝ)
    (h0 : (h 0).1 = t) (hne : ∀ j < C.stepsInit, t + dt ≠ (h j).1) :
    ∃ C', adamsPredict N O t dt C = .ok () C' ∧ AdamsMid N C' h dt v ∧ SameCount C C' := by
  obtain ⟨C', e, hk, hb, hg⟩ := adamsPredict_values N O t dt C hm.inv hm.const (fun j => (h j).1) h0 hm.time hne
  refine ⟨C', e, ⟨⟨hm.inv.same hk.count, hk.const, ?_, ?_⟩, ?_, ?_, ?_⟩, hk.count⟩
  · intro j h1 h2
    rw [hk.time j h1]
    exact hm.time j h1 (by rw [← hk.count.stepsInit]; exact h2)
  · rw [hk.phi]; exact hm.table
  · rw [hk.time0, h0]
  · rw [hk.count.eo, hk.count.stepsInit, h0]; exact hb
  · rw [hk.count.eo, hk.count.stepsInit, h0]; exact hg

/-- the end of a step: the new point comes in front of the history -/
theorem AdamsMid.finish {N : ℕ} {C : AdamsCoef ℝ V} {h : ℕ → ℝ × V} {dt : ℝ} {v : ℕ} (hm : AdamsMid N C h dt v) (hv : v ≤ C.eo) (d : V)
    (hne : ∀ j < C.stepsInit, (h 0).1 + dt ≠ (h j).1) :
    ∃ C', adamsUpdate N d 0 C = .ok () C' ∧ SameCount C C' ∧ AdamsMid N C' h dt v ∧ AdamsConst N (C'.confirm N) ∧
      (∀ j, 1 ≤ j → j < (C'.confirm N).stepsInit → (C'.confirm N).time j = (push ((h 0).1 + dt, d) h j).1) ∧
      TableValid (fun j => (push ((h 0).1 + dt, d) h j).1) (fun j => (push ((h 0).1 + dt, d) h j).2) (v + 1) ((C'.confirm N).phi 1) := by
  have hi := hm.mem.inv
  have hp := hi.pos
  have hl := hi.le
  have hh := hi.hist
  have hcap := hi.cap
  obtain ⟨C', e, hk, hd, hs⟩ := adamsUpdate_values N d 0 (by omega) C (by omega)
  refine ⟨C', e, hk.count, hm.update hk, ?_, ?_, ?_⟩
  · have := hk.const hm.mem.const
    exact ⟨this.beta1, this.beta0, this.c0, this.c1, this.g0, this.g1⟩
  · intro j h1 h2
    have h3 : (C'.confirm N).stepsInit = if C'.stepsInit < N + 1 then C'.stepsInit + 1 else C'.stepsInit := rfl
    rw [hk.count.stepsInit] at h3
    show C'.time ((j + N) % (N + 1)) = _
    obtain ⟨m, rfl⟩ : ∃ m, j = m + 1 := ⟨j - 1, by omega⟩
    have hmN : m < C.stepsInit := by split_ifs at h3 <;> omega
    rw [show m + 1 + N = m + (N + 1) by omega, Nat.add_mod_right, Nat.mod_eq_of_lt (by omega), hk.time]
    show C.time m = (h m).1
    rcases Nat.eq_zero_or_pos m with rfl | hm0
    · exact hm.time0
    · exact hm.mem.time m hm0 hmN
  · rw [times_push, derivs_push]
    show TableValid _ _ _ (C'.phi ((1 + 2) % 3))
    refine table_next hm.mem.table ((h 0).1 + dt) d le_rfl (fun j hj => hne j (by omega)) hd ?_
    intro i hi'
    rw [show (1 + 2) % 3 = 0 from rfl, hs rfl i (by omega), hm.beta i (by omega)]

end Verif
