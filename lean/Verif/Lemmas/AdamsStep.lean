import Verif.Lemmas.AdamsPece

/-!
# A step of `adaptive_adams_bashforth_moulton` is a predictor-corrector step
-/

namespace Verif
open Finset
set_option linter.unusedSectionVars false
variable {V E W A : Type} [AddCommGroup V] [Module ℝ V]

/-- The times of the step are distinct: `t + dt`, and the first `n` points of the history. -/
def AdamsDistinct (n : ℕ) (h : ℕ → ℝ × V) (t' : ℝ) : Prop :=
  (∀ j < n, t' ≠ (h j).1) ∧ ∀ i < n, ∀ j < n, (h i).1 = (h j).1 → i = j

theorem AdamsDistinct.injOn {n : ℕ} {h : ℕ → ℝ × V} {t' : ℝ} (hd : AdamsDistinct n h t') {k : ℕ} (hk : k ≤ n) :
    Set.InjOn (fun j => (h j).1) (range k) := by
  intro i hi j hj e
  have hi := mem_range.1 (mem_coe.1 hi)
  have hj := mem_range.1 (mem_coe.1 hj)
  exact hd.2 i (by omega) j (by omega) e

theorem AdamsDistinct.injOn_push {n : ℕ} {h : ℕ → ℝ × V} {t' : ℝ} (hd : AdamsDistinct n h t') {k : ℕ} (hk : k ≤ n) :
    Set.InjOn (push t' fun j => (h j).1) (range (k + 1)) := by
  intro i hi j hj e
  have hi := mem_range.1 (mem_coe.1 hi)
  have hj := mem_range.1 (mem_coe.1 hj)
  cases i with
  | zero =>
    cases j with
    | zero => rfl
    | succ j => exact absurd e (hd.1 j (by omega))
  | succ i =>
    cases j with
    | zero => exact absurd e.symm (hd.1 i (by omega))
    | succ j => exact congrArg (· + 1) (hd.2 i (by omega) j (by omega) e)

/-- The memory between two steps. -/
def AdamsHist (N : ℕ) (C : AdamsCoef ℝ V) (h : ℕ → ℝ × V) : Prop := AdamsMem N C h (if C.stepsInit = 1 then 0 else C.eo)

theorem AdamsMem.mono {N : ℕ} {C : AdamsCoef ℝ V} {h : ℕ → ℝ × V} {v w : ℕ} (hm : AdamsMem N C h v) (hw : w ≤ v) : AdamsMem N C h w :=
  ⟨hm.inv, hm.const, hm.time, hm.table.mono hw⟩

theorem AdamsMem.hist {N : ℕ} {C : AdamsCoef ℝ V} {h : ℕ → ℝ × V} {v : ℕ} (hm : AdamsMem N C h v) (hw : C.eo ≤ v) : AdamsHist N C h := by
  refine AdamsMem.mono hm ?_
  split_ifs <;> omega

theorem hist_of_mem {N : ℕ} {C C' : AdamsCoef ℝ V} {h : ℕ → ℝ × V} (hs : SameCount C C')
    (hm : AdamsMem N C' h (if C.stepsInit = 1 then 0 else C.eo)) : AdamsHist N C' h := by
  unfold AdamsHist
  rw [hs.stepsInit, hs.eo]
  exact hm

/-- the predictor loop -/
theorem predictor_value (N : ℕ) (dt : ℝ) (k : ℕ) (hk : k ≤ N + 1) (x : V) (s : AdState ℝ V E W) :
    foldN (predictorStep N dt) k 0 x s = .ok (x + ∑ i ∈ range k, (dt * s.coef.g i * s.coef.beta 0 i) • s.coef.phi 1 i) s := by
  obtain ⟨a, s', e, rfl, ha⟩ := foldN_ok (fun n a s' => s' = s ∧ a = x + ∑ i ∈ range n, (dt * s.coef.g i * s.coef.beta 0 i) • s.coef.phi 1 i)
    k 0 (body := predictorStep N dt)
    (by
      rintro i a s' - hi ⟨rfl, rfl⟩
      refine ⟨_, s', by unfold predictorStep; rw [M.bind_ok (chk_ok (by omega) _)]; rfl, rfl, ?_⟩
      rw [sum_range_succ, lin_pair]
      simp only [lit]
      push_cast
      rw [one_smul, add_assoc]) x s ⟨rfl, by simp⟩
  rw [e, ha, Nat.zero_add]

theorem adamsCall_value {sys : Sys ℝ V W} (hsys : sys.Defined) {f : V → ℝ → V} (hf : Returns sys f) (x : V) (t : ℝ) (s : AdState ℝ V E W) :
    (adamsCall sys x t s).Sat (fun _ s' => s'.coef = s.coef ∧ s'.ext = s.ext ∧ s'.dxdt = f x t)
      (fun _ s' => s'.coef = s.coef ∧ s'.ext = s.ext) True := by
  unfold adamsCall
  have := hsys x t s.world
  cases h : sys x t s.world with
  | ok d w => exact ⟨rfl, rfl, hf _ _ _ _ _ h⟩
  | err e w => exact ⟨rfl, rfl⟩
  | ub => exact absurd h this
  | div => trivial

theorem onCoef_eq {m : M (AdamsCoef ℝ V) Unit} {s : AdState ℝ V E W} {C : AdamsCoef ℝ V} (h : m s.coef = .ok () C)
    {Q : Unit → AdState ℝ V E W → Prop} (hq : Q () { s with coef := C }) {F : Err → AdState ℝ V E W → Prop} {D : Prop} :
    (onCoef m s).Sat Q F D := by
  rw [onCoef_ok h]; exact hq

/-- the table of the predicted point -/
theorem phi_sum {ψ φ : ℕ → V} {β : ℕ → ℝ} {n : ℕ} (hs : ∀ i < n, ψ (i + 1) = ψ i - β i • φ i) : ψ n = ψ 0 - ∑ i ∈ range n, β i • φ i := by
  induction n with
  | zero => simp
  | succ n ih =>
    rw [hs n (by omega), ih fun i hi => hs i (by omega), sum_range_succ]
    abel

theorem AdamsMid.predicted {N : ℕ} {C : AdamsCoef ℝ V} {h : ℕ → ℝ × V} {dt : ℝ} {v : ℕ} (hm : AdamsMid N C h dt v) (hv : C.eo ≤ v)
    (hd : AdamsDistinct C.stepsInit h ((h 0).1 + dt)) (x : V) :
    x + ∑ i ∈ range C.eo, (dt * C.g i * C.beta 0 i) • C.phi 1 i = adamsP C.eo h x (h 0).1 dt := by
  have hh := hm.mem.inv.hist
  unfold adamsP adamsValue
  rw [← table_predictor hm.mem.table hv (hd.injOn hh) (h 0).1 ((h 0).1 + dt)]
  congr 1
  refine sum_congr rfl fun i hi => ?_
  have hi := mem_range.1 hi
  have hne := newton_ne (fun j => (h j).1) i (s := (h 0).1 + dt) fun j hj => hd.1 j (by omega)
  rw [hm.g i (by omega), hm.beta i (by omega), ← adamsC_integral _ _ _ _ hne, smul_smul]
  unfold adamsBeta
  congr 1
  ring

theorem AdamsMid.corrected {N : ℕ} {C : AdamsCoef ℝ V} {h : ℕ → ℝ × V} {dt : ℝ} {v : ℕ} (hm : AdamsMid N C h dt v) (hv : C.eo ≤ v)
    (hd : AdamsDistinct C.stepsInit h ((h 0).1 + dt)) (x : V) (f : V → ℝ → V) (ψ : ℕ → V)
    (h0 : ψ 0 = f (adamsP C.eo h x (h 0).1 dt) ((h 0).1 + dt)) (hs : ∀ i < C.eo, ψ (i + 1) = ψ i - C.beta 0 i • C.phi 1 i) :
    adamsP C.eo h x (h 0).1 dt + (dt * C.g C.eo) • ψ C.eo = adamsPec f C.eo h x (h 0).1 dt := by
  have hh := hm.mem.inv.hist
  have hne := newton_ne (fun j => (h j).1) C.eo (s := (h 0).1 + dt) fun j hj => hd.1 j (by omega)
  unfold adamsPec
  rw [← h0]
  unfold adamsValue
  rw [times_push]
  have hF : ∀ j, (push ((h 0).1 + dt, ψ 0) h j).2 = push (ψ 0) (fun j => (h j).2) j := fun j => congrFun (derivs_push ((h 0).1 + dt, ψ 0) h) j
  simp only [hF]
  rw [← table_corrector hm.mem.table hv ((h 0).1 + dt) (ψ 0) (hd.injOn_push hh) hne]
  unfold adamsP adamsValue
  rw [table_predictor hm.mem.table hv (hd.injOn hh), add_assoc]
  congr 2
  rw [phi_sum hs, ← adamsC_integral _ _ _ _ hne, hm.g C.eo (by omega), smul_smul]
  have e : ∑ i ∈ range C.eo, C.beta 0 i • C.phi 1 i = ∑ i ∈ range C.eo, adamsBeta (fun j => (h j).1) ((h 0).1 + dt) i • C.phi 1 i :=
    sum_congr rfl fun i hi => by rw [hm.beta i (by have := mem_range.1 hi; omega)]
  rw [e]
  congr 1
  field_simp

/-- `do_step_impl` is a PEC step of the current order from the points of the history. -/
theorem adamsStepImpl_pec (N : ℕ) (O : NumOps ℝ) {sys : Sys ℝ V W} (hsys : sys.Defined) {f : V → ℝ → V} (hf : Returns sys f) (x : V) (t dt : ℝ)
    (s : AdState ℝ V E W) (h : ℕ → ℝ × V) (hm : AdamsHist N s.coef h) (h0 : h 0 = (t, f x t))
    (hd : AdamsDistinct s.coef.stepsInit h (t + dt)) :
    (adamsStepImpl N O sys x t dt s).Sat
      (fun r s' => r.1 = adamsPec f s.coef.eo h x t dt ∧ r.2 = r.1 - adamsP s.coef.eo h x t dt ∧ AdamsMid N s'.coef h dt s.coef.eo ∧
        SameCount s.coef s'.coef ∧ s'.ext = s.ext)
      (fun _ s' => AdamsHist N s'.coef h ∧ SameCount s.coef s'.coef ∧ s'.ext = s.ext) True := by
  have hp := hm.inv.pos
  have hl := hm.inv.le
  have hh := hm.inv.hist
  have ht : (h 0).1 = t := by rw [h0]
  unfold adamsStepImpl
  rw [M.bind_ok (m := M.get) (w' := s) (a := s) rfl]
  apply Res.Sat.bind
  obtain ⟨C1, e1, m1, c1⟩ := AdamsMem.predict hm O t dt ht hd.1
  refine onCoef_eq e1 ?_
  rw [M.bind_ok (m := M.get) rfl]
  apply Res.Sat.bind
  have step1 : ((if C1.stepsInit = 1 then do
      adamsCall sys x t
      let s ← M.get
      onCoef (adamsUpdate N s.dxdt 1)
    else pure ()) ({ s with coef := C1 } : AdState ℝ V E W)).Sat
      (fun _ s' => AdamsMid N s'.coef h dt s.coef.eo ∧ SameCount s.coef s'.coef ∧ s'.ext = s.ext)
      (fun _ s' => AdamsHist N s'.coef h ∧ SameCount s.coef s'.coef ∧ s'.ext = s.ext) True := by
    by_cases hsi : C1.stepsInit = 1
    · rw [if_pos hsi]
      have hsi' : s.coef.stepsInit = 1 := by rw [← c1.stepsInit]; exact hsi
      rw [if_pos hsi'] at m1
      apply Res.Sat.bind
      refine (adamsCall_value hsys hf x t _).mono ?_ ?_ (fun h => h)
      · rintro - s2 ⟨c2, x2, d2⟩
        rw [M.bind_ok (m := M.get) (w' := s2) (a := s2) rfl]
        change s2.coef = C1 at c2
        obtain ⟨C3, e3, k3, p3, -⟩ := adamsUpdate_values N s2.dxdt 1 (by omega) s2.coef (by omega)
        refine onCoef_eq e3 ?_
        rw [c2] at k3
        refine ⟨⟨⟨m1.mem.inv.same k3.count, k3.const m1.mem.const, ?_, ?_⟩, ?_, ?_, ?_⟩, c1.trans k3.count, x2⟩
        · rw [k3.time, k3.count.stepsInit]; exact m1.mem.time
        · intro m hm'
          obtain rfl : m = 0 := by omega
          rw [sum_range_one, newton_zero, tableDen_zero, div_one, one_smul]
          show C3.phi 1 0 = (h 0).2
          rw [p3, d2, h0]
        · rw [k3.time]; exact m1.time0
        · rw [k3.beta, k3.count.eo, k3.count.stepsInit]; exact m1.beta
        · rw [k3.g, k3.count.eo, k3.count.stepsInit]; exact m1.g
      · rintro e s2 ⟨c2, x2⟩
        change s2.coef = C1 at c2
        rw [c2]
        exact ⟨hist_of_mem c1 (by rw [if_pos hsi']; exact m1.mem), c1, x2⟩
    · rw [if_neg hsi]
      have hsi' : ¬ s.coef.stepsInit = 1 := by rw [← c1.stepsInit]; exact hsi
      rw [if_neg hsi'] at m1
      exact ⟨m1, c1, rfl⟩
  refine step1.mono ?_ (fun _ _ h => h) (fun h => h)
  rintro - s2 ⟨m2, c2, x2⟩
  rw [M.bind_ok (predictor_value N dt s.coef.eo (by omega) x s2)]
  have hd2 : AdamsDistinct s2.coef.stepsInit h ((h 0).1 + dt) := by rw [c2.stepsInit, ht]; exact hd
  have hpred := m2.predicted (by rw [c2.eo]) hd2 x
  rw [c2.eo, ht] at hpred
  rw [hpred]
  apply Res.Sat.bind
  refine (adamsCall_value hsys hf _ (t + dt) s2).mono ?_ ?_ (fun h => h)
  · rintro - s3 ⟨c3, x3, d3⟩
    rw [M.bind_ok (m := M.get) (w' := s3) (a := s3) rfl]
    apply Res.Sat.bind
    rw [← c3] at m2 c2 hd2
    obtain ⟨C4, e4, k4, p4, q4⟩ := adamsUpdate_values N s3.dxdt 0 (by omega) s3.coef (by omega)
    refine onCoef_eq e4 ?_
    have m4 := m2.update k4
    have hcor := m4.corrected (by rw [k4.count.eo, c2.eo]) (by rw [k4.count.stepsInit]; exact hd2) x f (C4.phi 0)
      (by rw [p4, d3, k4.count.eo, c2.eo, ht])
      (by
        intro i hi
        rw [k4.count.eo, c2.eo] at hi
        have e1 := c2.stepsInit
        have e2 := c2.eo
        rw [q4 rfl i (by omega), k4.beta, k4.phi 1 (by omega)])
    rw [k4.count.eo, c2.eo, ht] at hcor
    rw [M.bind_ok (chk_ok (by omega) _), M.bind_ok (m := M.get) rfl]
    refine ⟨?_, ?_, m4, c2.trans k4.count, x3.trans x2⟩
    · show lin _ = _
      rw [lin_pair, ← hcor]
      simp only [lit]
      push_cast
      rw [one_smul]
    · show lin _ = lin _ - _
      rw [lin_pair]
      simp [lit, lin]
  · rintro e s3 ⟨c3, x3⟩
    rw [c3]
    exact ⟨m2.mem.hist (by rw [c2.eo]), c2, x3.trans x2⟩

end Verif
