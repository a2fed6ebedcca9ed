import Verif.Model.Iterator
import Verif.Props.DenseAdaptive
import Verif.Lemmas.RunEval

/-!
# C15 for dense output steppers: `make_adaptive_time_range` and `integrate_adaptive`
-/

namespace Verif
variable {Q S : Type} {K : Type} [Field K] [LinearOrder K] [IsStrictOrderedRing K]

/-- The sequence of observations, as both programs determine it. -/
inductive DenseRun (p : PureDense Q S K) (eps t1 : K) : Q → List (S × K) → S → Prop
  | stop {q} : (TimeArith.exact K eps).lessWithSign (p.curTime q) t1 (p.curDt q) = false →
      DenseRun p eps t1 q [(p.curState q, p.curTime q)] (p.curState q)
  | clip {q q' q'' l y} : (TimeArith.exact K eps).lessWithSign (p.curTime q) t1 (p.curDt q) = true →
      (TimeArith.exact K eps).lessWithSign t1 (p.curTime q + p.curDt q) (p.curDt q) = true →
      p.init q (p.curState q) (p.curTime q) (t1 - p.curTime q) = .ok q' → p.doStep q' = .ok q'' →
      DenseRun p eps t1 q'' l y → DenseRun p eps t1 q ((p.curState q, p.curTime q) :: l) y
  | full {q q'' l y} : (TimeArith.exact K eps).lessWithSign (p.curTime q) t1 (p.curDt q) = true →
      (TimeArith.exact K eps).lessWithSign t1 (p.curTime q + p.curDt q) (p.curDt q) = false →
      p.doStep q = .ok q'' →
      DenseRun p eps t1 q'' l y → DenseRun p eps t1 q ((p.curState q, p.curTime q) :: l) y

theorem DenseRun.det {p : PureDense Q S K} {eps t1 : K} {q : Q} {l l' : List (S × K)} {y y' : S}
    (h : DenseRun p eps t1 q l y) (h' : DenseRun p eps t1 q l' y') : l = l' ∧ y = y' := by
  induction h generalizing l' y' with
  | stop a =>
    cases h' with
    | stop b => exact ⟨rfl, rfl⟩
    | clip b => rw [a] at b; cases b
    | full b => rw [a] at b; cases b
  | clip a b c d e ih =>
    cases h' with
    | stop a' => rw [a] at a'; cases a'
    | clip a' b' c' d' e' =>
      rw [c] at c'; cases c'; rw [d] at d'; cases d'
      obtain ⟨rfl, rfl⟩ := ih e'; exact ⟨rfl, rfl⟩
    | full a' b' => rw [b] at b'; cases b'
  | full a b d e ih =>
    cases h' with
    | stop a' => rw [a] at a'; cases a'
    | full a' b' d' e' =>
      rw [d] at d'; cases d'
      obtain ⟨rfl, rfl⟩ := ih e'; exact ⟨rfl, rfl⟩
    | clip a' b' => rw [b] at b'; cases b'

/-- what has been observed so far, `q` being the current stepper -/
structure RunInv (p : PureDense Q S K) (eps t1 : K) (q0 : Q) (w : Log S K) (q : Q) (w' : Log S K) :
    Prop where
  run : ∃ obs, w'.observations = w.observations ++ obs ∧
    ∀ l y, DenseRun p eps t1 q l y → DenseRun p eps t1 q0 (obs ++ l) y

theorem less_of_abs {eps d t t1 : K} (h : (TimeArith.exact K eps).lessWithSign t t1 d = true) :
    eps < |t1 - t| := by
  rw [exact_less] at h
  rw [← abs_dirSign_mul d]
  exact lt_of_lt_of_le h (le_abs_self _)

theorem abs_le_of_not_beyond {eps dt t t1 : K} (h1 : ¬ Beyond eps dt t t1) (h2 : ¬ Beyond eps dt t1 t) :
    |t1 - t| ≤ eps := by
  rw [not_beyond_iff] at h1 h2
  rw [← abs_dirSign_mul dt, abs_le]
  have : dirSign dt * (t - t1) = - (dirSign dt * (t1 - t)) := by ring
  constructor <;> linarith

/-- a step that was allowed does not lead beyond the end -/
theorem step_not_beyond {eps dt t1 : K} {p : PureDense Q S K} (hp : DenseContract p) {q q' : Q}
    (hq' : p.doStep q = .ok q') (hdir : SameDir dt (p.curDt q))
    (hcond : dirSign dt * (p.curTime q + p.curDt q - t1) ≤ eps) :
    ¬ Beyond eps dt (p.curTime q') t1 := by
  obtain ⟨a1, a2⟩ := hp.advance q q' hq' hdir.ne_zero
  rw [not_beyond_iff]
  have e1 := dirSign_mul_self (p.curDt q)
  have e2 := dirSign_mul_self (p.curTime q' - p.curTime q)
  rw [← dirSign_of_sameDir a1, ← dirSign_of_sameDir hdir] at e2
  rw [← dirSign_of_sameDir hdir] at e1
  have : dirSign dt * (p.curTime q' - t1) = dirSign dt * (p.curTime q + p.curDt q - t1) +
    (dirSign dt * (p.curTime q' - p.curTime q) - dirSign dt * p.curDt q) := by ring
  rw [this, e1, e2]; linarith

/-- stepping after re-initialisation for the last step is the same run -/
theorem DenseRun.of_init {p : PureDense Q S K} (hp : DenseContract p) {eps dt t1 : K} (heps : 0 ≤ eps)
    {q1 q2 : Q} {l : List (S × K)} {y : S}
    (hnb : ¬ Beyond eps dt (p.curTime q1) t1) (hd : SameDir dt (p.curDt q1))
    (hc : (TimeArith.exact K eps).lessWithSign t1 (p.curTime q1 + p.curDt q1) (p.curDt q1) = true)
    (hq2 : p.init q1 (p.curState q1) (p.curTime q1) (t1 - p.curTime q1) = .ok q2)
    (h : DenseRun p eps t1 q2 l y) : DenseRun p eps t1 q1 l y := by
  have e1 := hp.init_state _ _ _ _ _ hq2
  have e2 := hp.init_time _ _ _ _ _ hq2
  have e3 := hp.init_dt _ _ _ _ _ hq2
  by_cases hlt : (TimeArith.exact K eps).lessWithSign (p.curTime q1) t1 (p.curDt q1) = true
  · have hpos : 0 < dirSign dt * (t1 - p.curTime q1) := by
      have := (exact_less _ _ _ _).mp hlt
      rw [← dirSign_of_sameDir hd] at this
      linarith
    have hd2 : SameDir dt (p.curDt q2) := by rw [e3, sameDir_iff hd.symm.ne_zero]; exact hpos
    have hlt2 : (TimeArith.exact K eps).lessWithSign (p.curTime q2) t1 (p.curDt q2) = true := by
      rw [exact_less, ← dirSign_of_sameDir hd2, dirSign_of_sameDir hd, e2]
      exact (exact_less _ _ _ _).mp hlt
    cases h with
    | stop a => rw [hlt2] at a; cases a
    | clip a b =>
      rw [exact_less, e2, e3] at b
      have : p.curTime q1 + (t1 - p.curTime q1) - t1 = 0 := by ring
      rw [this, mul_zero] at b
      exact absurd b (not_lt.mpr heps)
    | full a b c d =>
      rw [e1, e2]
      exact .clip hlt hc hq2 c d
  · have hlt' : (TimeArith.exact K eps).lessWithSign (p.curTime q1) t1 (p.curDt q1) = false := by
      simpa using hlt
    have hlt2 : ¬ (TimeArith.exact K eps).lessWithSign (p.curTime q2) t1 (p.curDt q2) = true := by
      intro hh
      have := less_of_abs hh
      rw [e2] at this
      refine absurd (abs_le_of_not_beyond hnb ?_) (not_le.mpr this)
      rw [not_beyond_iff, dirSign_of_sameDir hd]
      exact (exact_less_false _ _ _ _).mp hlt'
    cases h with
    | stop a => rw [e1, e2]; exact .stop hlt'
    | clip a => exact absurd a hlt2
    | full a => exact absurd a hlt2

theorem adaptiveDense_run (eps : K) (heps : 0 ≤ eps) (p : PureDense Q S K) (hp : DenseContract p)
    (hbig : ∀ q q', p.doStep q = .ok q' → p.curDt q ≠ 0 → 2 * eps < |p.curDt q'|)
    (q : Q) (x : S) (t0 t1 dt : K) (hdt0 : dt ≠ 0) (hdt : 2 * eps < |dt|) (h0 : ¬ Beyond eps dt t0 t1)
    (w w' : Log S K) (r : S × ℕ)
    (hr : integrateAdaptiveDense (TimeArith.exact K eps) (loggedDense p) record q x t0 t1 dt w = .ok r w') :
    ∃ q0 obs, p.init q x t0 dt = .ok q0 ∧ w'.observations = w.observations ++ obs ∧
      DenseRun p eps t1 q0 obs r.1 := by
  have : (integrateAdaptiveDense (TimeArith.exact K eps) (loggedDense p) record q x t0 t1 dt w).Sat
      (fun r w' => ∃ q0 obs, p.init q x t0 dt = .ok q0 ∧ w'.observations = w.observations ++ obs ∧
      DenseRun p eps t1 q0 obs r.1) (fun _ _ => True) True := by
    unfold integrateAdaptiveDense
    apply Res.Sat.bind
    apply logCall_sat
    swap
    · intros; trivial
    intro q0 hq0
    apply Res.Sat.bind
    have e1 := hp.init_state _ _ _ _ _ hq0
    have e2 := hp.init_time _ _ _ _ _ hq0
    have e3 := hp.init_dt _ _ _ _ _ hq0
    refine (whileM_sat (fun (s : Q × ℕ) w' => RunInv p eps t1 q0 w s.1 w' ∧
      ¬ Beyond eps dt (p.curTime s.1) t1 ∧
      (SameDir dt (p.curDt s.1) ∨ ¬ Beyond eps dt t1 (p.curTime s.1)))
      (E := fun _ _ => True) ?_ ?_).mono ?_ (fun _ _ h => h) id
    · rintro s w1 ⟨hI, hnb, hdone⟩ hc
      have hd : SameDir dt (p.curDt s.1) := by
        rcases hdone with h | h1
        · exact h
        · exact absurd (abs_le_of_not_beyond hnb h1) (not_le.mpr (less_of_abs hc))
      apply Res.Sat.bind
      refine (whileM_sat (fun (s : Q × ℕ) w' => (RunInv p eps t1 q0 w s.1 w' ∧
        ¬ Beyond eps dt (p.curTime s.1) t1) ∧ SameDir dt (p.curDt s.1) ∧
        ((TimeArith.exact K eps).lessWithSign (p.curTime s.1) t1 (p.curDt s.1) = true ∨
          2 * eps < |p.curDt s.1|)) (E := fun _ _ => True) ?_
        ⟨⟨hI, hnb⟩, hd, .inl hc⟩).mono ?_ (fun _ _ h => h) id
      · rintro ⟨q, n⟩ w2 ⟨⟨⟨obs, ho, hg⟩, hnb⟩, hdir, hsz⟩ hc
        simp only at ho hg hnb hdir hc hsz ⊢
        rw [record_bind]
        apply Res.Sat.bind
        apply logCall_sat
        swap
        · intros; trivial
        intro q' hq'
        have hcond : dirSign dt * (p.curTime q + p.curDt q - t1) ≤ eps := by
          rw [dirSign_of_sameDir hdir]
          exact (exact_lessEq _ _ _ _).mp hc
        refine ⟨⟨⟨obs ++ [(p.curState q, p.curTime q)], ?_, ?_⟩, step_not_beyond hp hq' hdir hcond⟩,
          hdir.trans (hp.dir _ _ hq' hdir.ne_zero), .inr (hbig _ _ hq' hdir.ne_zero)⟩
        · rw [observations_append, observations_append, ho]; simp [Log.observations, loggedDense]
        · intro l y hl
          rw [List.append_assoc]
          apply hg
          have hlt : (TimeArith.exact K eps).lessWithSign (p.curTime q) t1 (p.curDt q) = true := by
            rcases hsz with h | h
            · exact h
            · rw [exact_less, ← dirSign_of_sameDir hdir]
              have e1 := dirSign_mul_self (p.curDt q)
              rw [← dirSign_of_sameDir hdir] at e1
              have : dirSign dt * (p.curTime q + p.curDt q - t1) =
                dirSign dt * p.curDt q - dirSign dt * (t1 - p.curTime q) := by ring
              linarith
          refine .full hlt ?_ hq' hl
          rw [exact_less_false]
          rw [dirSign_of_sameDir hdir] at hcond
          exact hcond
      · rintro ⟨q1, n1⟩ w2 ⟨⟨⟨⟨obs, ho, hg⟩, hnb⟩, hd1, hsz⟩, hstop⟩
        apply Res.Sat.bind
        apply logCall_sat
        swap
        · intros; trivial
        intro q2 hq2
        have f1 := hp.init_state _ _ _ _ _ hq2
        have f2 := hp.init_time _ _ _ _ _ hq2
        have f3 := hp.init_dt _ _ _ _ _ hq2
        have f2' : p.curTime q2 = p.curTime q1 := f2
        have f3' : p.curDt q2 = t1 - p.curTime q1 := f3
        have hstop' : (TimeArith.exact K eps).lessWithSign t1 (p.curTime q1 + p.curDt q1) (p.curDt q1)
            = true := by
          rw [exact_less]
          exact (exact_lessEq_false _ _ _ _).mp hstop
        refine ⟨⟨obs, ?_, ?_⟩, ?_, ?_⟩
        · rw [observations_append, ho]; simp [Log.observations]
        · intro l y hl
          exact hg _ _ (hl.of_init hp heps hnb hd1 hstop' hq2)
        · simp only [f2']; exact hnb
        · simp only [f2', f3']
          by_cases hpos : SameDir dt (t1 - p.curTime q1)
          · exact .inl hpos
          · right
            rw [sameDir_iff hdt0, not_lt] at hpos
            rw [not_beyond_iff]; linarith
    · refine ⟨⟨[], ?_, fun l y hl => by simpa using hl⟩, ?_, .inl ?_⟩
      · rw [observations_append]; simp [Log.observations]
      · simp only [e2]; exact h0
      · simp only [e3]; exact SameDir.refl hdt0
    · rintro ⟨q1, n1⟩ w2 ⟨⟨⟨obs, ho, hg⟩, hnb, hdone⟩, hc⟩
      simp only at ho hg hnb hdone hc ⊢
      rw [record_bind]
      refine ⟨q0, obs ++ [(p.curState q1, p.curTime q1)], hq0, ?_, hg _ _ (.stop hc)⟩
      rw [observations_append, ho]; simp [Log.observations, loggedDense]
  exact this.of_ok hr

/-- what the loop over the range has observed -/
def IterInv (p : PureDense Q S K) (eps t1 : K) (q0 : Q) (w : Log S K) (i : DenseIter Q K)
    (w' : Log S K) : Prop :=
  if i.atEnd then ∃ obs, w'.observations = w.observations ++ obs ∧
    DenseRun p eps t1 q0 obs (p.curState i.q)
  else i.t = p.curTime i.q ∧ RunInv p eps t1 q0 w i.q w'

theorem adaptiveDense_range_run (eps : K) (p : PureDense Q S K) (hp : DenseContract p)
    (q : Q) (x : S) (t0 t1 dt : K) (h0 : ¬ Beyond eps dt t0 t1)
    (w w' : Log S K) (i : DenseIter Q K)
    (hr : (adaptiveDenseIteratorBegin (TimeArith.exact K eps) (loggedDense p) q x t0 t1 dt >>=
      (adaptiveDenseIterator (TimeArith.exact K eps) (loggedDense p) t1).forEach record) w = .ok i w') :
    ∃ q0 obs, p.init q x t0 dt = .ok q0 ∧ w'.observations = w.observations ++ obs ∧
      DenseRun p eps t1 q0 obs (p.curState i.q) := by
  have : ((adaptiveDenseIteratorBegin (TimeArith.exact K eps) (loggedDense p) q x t0 t1 dt >>=
      (adaptiveDenseIterator (TimeArith.exact K eps) (loggedDense p) t1).forEach record) w).Sat
      (fun i w' => ∃ q0 obs, p.init q x t0 dt = .ok q0 ∧ w'.observations = w.observations ++ obs ∧
      DenseRun p eps t1 q0 obs (p.curState i.q)) (fun _ _ => True) True := by
    have hb : (TimeArith.exact K eps).lessEqWithSign t0 t1 dt = true := by
      rw [exact_lessEq]; exact (not_beyond_iff _ _ _ _).mp h0
    unfold adaptiveDenseIteratorBegin
    rw [if_pos hb]
    simp only [bind_assoc, pure_bind]
    apply Res.Sat.bind
    apply logCall_sat
    swap
    · intros; trivial
    intro q0 hq0
    have e2 := hp.init_time _ _ _ _ _ hq0
    refine (whileM_sat (IterInv p eps t1 q0 w) (E := fun _ _ => True) ?_ ?_).mono ?_
      (fun _ _ h => h) id
    · rintro ⟨q, t, fl⟩ w1 hI hc
      have hfl : fl = false := by simpa [adaptiveDenseIterator] using hc
      subst hfl
      simp only [IterInv, Bool.false_eq_true, if_false] at hI
      obtain ⟨rfl, obs, ho, hg⟩ := hI
      simp only [adaptiveDenseIterator]
      rw [record_bind]
      simp only [show ∀ q, (loggedDense p).curDt q = p.curDt q from fun _ => rfl,
        show ∀ q, (loggedDense p).curState q = p.curState q from fun _ => rfl,
        show ∀ q, (loggedDense p).curTime q = p.curTime q from fun _ => rfl,
        show ∀ a b, (TimeArith.exact K eps).add a b = a + b from fun _ _ => rfl]
      have ho' : Log.observations (w1 ++ [.obs (p.curState q) (p.curTime q)]) =
          w.observations ++ (obs ++ [(p.curState q, p.curTime q)]) := by
        rw [observations_append, ho]; simp [Log.observations]
      by_cases hlt : (TimeArith.exact K eps).lessWithSign (p.curTime q) t1 (p.curDt q) = true
      · rw [if_pos hlt]
        by_cases hcl : (TimeArith.exact K eps).lessWithSign t1 (p.curTime q + p.curDt q) (p.curDt q) = true
        · simp only [hcl, if_true]
          apply Res.Sat.bind
          apply logCall_sat
          swap
          · intros; trivial
          intro q1 hq1
          apply Res.Sat.bind
          apply logCall_sat
          swap
          · intros; trivial
          intro q2 hq2
          have hI' : IterInv p eps t1 q0 w ⟨q2, p.curTime q2, false⟩
              (((w1 ++ [.obs (p.curState q) (p.curTime q)]) ++
                [.init (p.curState q) (p.curTime q) (t1 - p.curTime q)]) ++
                [.step (p.curState q1) (p.curTime q1) (p.curDt q1)]) := by
            simp only [IterInv, Bool.false_eq_true, if_false]
            refine ⟨trivial, obs ++ [(p.curState q, p.curTime q)], ?_, ?_⟩
            · rw [observations_append, observations_append, ho']; simp [Log.observations]
            · intro l y hl
              rw [List.append_assoc]
              exact hg _ _ (.clip hlt hcl hq1 hq2 hl)
          exact hI'
        · have hcl0 : (TimeArith.exact K eps).lessWithSign t1 (p.curTime q + p.curDt q) (p.curDt q) = false := by
            simpa using hcl
          simp only [hcl0, Bool.false_eq_true, if_false, pure_bind]
          apply Res.Sat.bind
          apply logCall_sat
          swap
          · intros; trivial
          intro q2 hq2
          have hI' : IterInv p eps t1 q0 w ⟨q2, p.curTime q2, false⟩
              ((w1 ++ [.obs (p.curState q) (p.curTime q)]) ++
                [.step (p.curState q) (p.curTime q) (p.curDt q)]) := by
            simp only [IterInv, Bool.false_eq_true, if_false]
            refine ⟨trivial, obs ++ [(p.curState q, p.curTime q)], ?_, ?_⟩
            · rw [observations_append, ho']; simp [Log.observations]
            · intro l y hl
              rw [List.append_assoc]
              exact hg _ _ (.full hlt hcl0 hq2 hl)
          exact hI'
      · have hlt0 : (TimeArith.exact K eps).lessWithSign (p.curTime q) t1 (p.curDt q) = false := by
          simpa using hlt
        rw [if_neg hlt]
        have hI' : IterInv p eps t1 q0 w ⟨q, p.curTime q, true⟩
            (w1 ++ [.obs (p.curState q) (p.curTime q)]) := by
          simp only [IterInv, if_true]
          exact ⟨_, ho', hg _ _ (.stop hlt0)⟩
        exact hI'
    · simp only [IterInv, Bool.false_eq_true, if_false]
      refine ⟨e2.symm, [], ?_, fun l y hl => by simpa using hl⟩
      rw [observations_append]; simp [Log.observations]
    · rintro ⟨q, t, fl⟩ w1 ⟨hI, hc⟩
      have hfl : fl = true := by simpa [adaptiveDenseIterator] using hc
      subst hfl
      simp only [IterInv, if_true] at hI
      obtain ⟨obs, ho, hg⟩ := hI
      exact ⟨q0, obs, hq0, ho, hg⟩
  exact this.of_ok hr

/-- C15 (`make_adaptive_time_range`, dense output steppers): in exact arithmetic, if the step sizes are
larger than twice the tolerance and the end is not before the start, the sequence of pairs the range yields
is the sequence of observer calls of `integrate_adaptive`, and both leave the stepper in the same state of
the system. -/
theorem adaptive_range_dense_eq_integrate (eps : K) (heps : 0 ≤ eps) (p : PureDense Q S K)
    (hp : DenseContract p) (hbig : ∀ q q', p.doStep q = .ok q' → p.curDt q ≠ 0 → 2 * eps < |p.curDt q'|)
    (q : Q) (x : S) (t0 t1 dt : K) (hdt0 : dt ≠ 0) (hdt : 2 * eps < |dt|) (h0 : ¬ Beyond eps dt t0 t1)
    (w w1 w2 : Log S K) (r : S × ℕ) (i : DenseIter Q K)
    (hr : integrateAdaptiveDense (TimeArith.exact K eps) (loggedDense p) record q x t0 t1 dt w = .ok r w1)
    (hi : (do let b ← adaptiveDenseIteratorBegin (TimeArith.exact K eps) (loggedDense p) q x t0 t1 dt
              (adaptiveDenseIterator (TimeArith.exact K eps) (loggedDense p) t1).forEach record b) w =
      .ok i w2) :
    w1.observations = w2.observations ∧ r.1 = p.curState i.q := by
  obtain ⟨q0, obs, hq0, ho, hg⟩ :=
    adaptiveDense_run eps heps p hp hbig q x t0 t1 dt hdt0 hdt h0 w w1 r hr
  obtain ⟨q0', obs', hq0', ho', hg'⟩ := adaptiveDense_range_run eps p hp q x t0 t1 dt h0 w w2 i hi
  rw [hq0] at hq0'
  cases hq0'
  obtain ⟨rfl, hy⟩ := hg.det hg'
  exact ⟨by rw [ho, ho'], hy⟩

/-- The hypotheses are satisfiable: with exact comparisons (`eps = 0`, e.g. a rational time type) they only
ask for nonzero steps. -/
example : ∀ (q q' : ℚ × ℚ × ℚ), (rampDense (3/2 : ℚ)).doStep q = .ok q' → (rampDense (3/2 : ℚ)).curDt q ≠ 0 →
    2 * (0 : ℚ) < |(rampDense (3/2 : ℚ)).curDt q'| := by
  rintro ⟨x, t, d⟩ _ ⟨⟩ h
  simp only [rampDense, mul_zero, abs_pos, ne_eq, mul_eq_zero, not_or] at h ⊢
  exact ⟨by norm_num, h⟩

/-- A run meeting the hypotheses that makes two full steps and a clipped one: both programs observe
`(0,0), (1,1), (5/2,5/2), (4,4)`. -/
example : ∃ r w', integrateAdaptiveDense (TimeArith.exact ℚ 0) (loggedDense (rampDense (3/2 : ℚ))) record
    (0, 0, 0) 0 0 4 1 [] = .ok r w' ∧
    w'.observations = [(0, 0), (1, 1), (5/2, 5/2), (4, 4)] := by
  apply exists_eval
  · unfold integrateAdaptiveDense
    run_eval
  · norm_num [Log.observations, rampDense, loggedDense, TimeArith.exact, List.filterMap_cons]

example : ∃ i w', ((adaptiveDenseIteratorBegin (TimeArith.exact ℚ 0) (loggedDense (rampDense (3/2 : ℚ)))
      (0, 0, 0) 0 0 4 1) >>= (adaptiveDenseIterator (TimeArith.exact ℚ 0)
        (loggedDense (rampDense (3/2 : ℚ))) 4).forEach record) [] = .ok i w' ∧
    w'.observations = [(0, 0), (1, 1), (5/2, 5/2), (4, 4)] := by
  apply exists_eval
  · unfold adaptiveDenseIteratorBegin OdeIterator.forEach adaptiveDenseIterator
    run_eval
  · norm_num [Log.observations, rampDense, loggedDense, TimeArith.exact, List.filterMap_cons]

end Verif
