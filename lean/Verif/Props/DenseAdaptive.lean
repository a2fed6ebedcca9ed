import Verif.Lemmas.Controlled
import Verif.Props.Times
import Verif.Spec.Dense

/-!
# C12: integrate_adaptive with a dense output stepper
-/

namespace Verif
variable {Q S : Type}

theorem logCall_ok {T α : Type} {e : Event S T} {r : Except Err α} {a : α} (h : r = .ok a) (w : Log S T) :
    logCall e r w = .ok a (w ++ [e]) := by rw [h]; rfl

theorem logCall_err {T α : Type} {e : Event S T} {r : Except Err α} {x : Err} (h : r = .error x)
    (w : Log S T) : logCall e r w = .err x (w ++ [e]) := by rw [h]; rfl

/-- Postcondition of one recorded call. -/
theorem logCall_sat {T α : Type} {e : Event S T} {r : Except Err α} {w : Log S T}
    {P : α → Log S T → Prop} {E : Err → Log S T → Prop} {D : Prop}
    (hok : ∀ a, r = .ok a → P a (w ++ [e])) (herr : ∀ x, r = .error x → E x (w ++ [e])) :
    (logCall e r w).Sat P E D := by
  cases r with
  | ok a => exact hok a rfl
  | error x => exact herr x rfl

section
variable {K : Type} [Field K] [LinearOrder K] [IsStrictOrderedRing K]

/-- What is known about the observations of a run that has made `n` steps and is now in `(xl, tl)`. -/
def GoodDense (p : PureDense Q S K) (eps dt t1 : K) (x0 : S) (t0 : K) (xl : S) (tl : K) (n : ℕ)
    (obs : List (S × K)) : Prop :=
  obs.length = n + 1 ∧ obs.head? = some (x0, t0) ∧ obs.getLast? = some (xl, tl) ∧
    obs.IsChain (DenseStep p eps dt t1)

theorem GoodDense.snoc {p : PureDense Q S K} {eps dt t1 : K}
    {x0 : S} {t0 : K} {xl : S} {tl : K} {n : ℕ} {obs : List (S × K)} {x' : S} {t' : K}
    (h : GoodDense p eps dt t1 x0 t0 xl tl n obs)
    (hs : DenseStep p eps dt t1 (xl, tl) (x', t')) :
    GoodDense p eps dt t1 x0 t0 x' t' (n + 1) (obs ++ [(x', t')]) := by
  obtain ⟨h1, h2, h3, h4⟩ := h
  refine ⟨by simp [h1], ?_, by simp, ?_⟩
  · cases obs with
    | nil => cases h2
    | cons a l => simpa using h2
  · rw [List.isChain_append]
    refine ⟨h4, List.isChain_singleton _, ?_⟩
    intro a ha b hb
    rw [h3] at ha
    cases ha
    simp at hb
    subst hb
    exact hs

theorem GoodDense.head {p : PureDense Q S K} {eps dt t1 : K}
    {x0 : S} {t0 : K} {xl : S} {tl : K} {n : ℕ} {obs : List (S × K)}
    (h : GoodDense p eps dt t1 x0 t0 xl tl n obs) : ∀ a ∈ obs.head?, a = (x0, t0) := by
  rw [h.2.1]; simp [eq_comm]

/-- Loop invariant. -/
structure AdInv (p : PureDense Q S K) (eps dt t1 : K) (x0 : S) (t0 : K) (w : Log S K)
    (s : Q × ℕ) (w' : Log S K) : Prop where
  obs : ∃ obs, w'.observations = w.observations ++ obs ∧
    GoodDense p eps dt t1 x0 t0 (p.curState s.1) (p.curTime s.1) s.2
      (obs ++ [(p.curState s.1, p.curTime s.1)])
  steps : w'.stepCount = w.stepCount + s.2
  notBeyond : ¬ Beyond eps dt t0 t1 → ¬ Beyond eps dt (p.curTime s.1) t1

theorem adaptiveDense_inner_sat (eps : K) (p : PureDense Q S K)
    (hp : DenseContract p) (x0 : S) (t0 t1 dt : K) (w : Log S K) (s : Q × ℕ) (w1 : Log S K)
    (hI : AdInv p eps dt t1 x0 t0 w s w1) (hd : SameDir dt (p.curDt s.1)) :
    (whileM
        (fun s : Q × ℕ => (TimeArith.exact K eps).lessEqWithSign
          ((TimeArith.exact K eps).add ((loggedDense p).curTime s.1) ((loggedDense p).curDt s.1)) t1
            ((loggedDense p).curDt s.1))
        (fun s => do
          record ((loggedDense p).curState s.1) ((loggedDense p).curTime s.1)
          let q ← (loggedDense p).doStep s.1
          return (q, s.2 + 1))
        s w1).Sat (fun s' w' => AdInv p eps dt t1 x0 t0 w s' w' ∧ SameDir dt (p.curDt s'.1) )
      (fun _ w' => ∃ obs, w'.observations = w.observations ++ obs ∧
          (∀ a ∈ obs.head?, a = (x0, t0)) ∧ obs.IsChain (DenseStep p eps dt t1)) True := by
  refine (whileM_sat (fun s' w' => AdInv p eps dt t1 x0 t0 w s' w' ∧ SameDir dt (p.curDt s'.1))
    (E := fun _ w' => ∃ obs, w'.observations = w.observations ++ obs ∧
          (∀ a ∈ obs.head?, a = (x0, t0)) ∧ obs.IsChain (DenseStep p eps dt t1)) ?_ ⟨hI, hd⟩).mono (fun _ _ h => h.1)
    (fun _ _ h => h) id
  rintro ⟨q, n⟩ w2 ⟨⟨⟨obs, ho, hg⟩, hcnt, hnb⟩, hdir⟩ hc
  simp only at ho hg hcnt hnb hdir hc ⊢
  rw [record_bind]
  apply Res.Sat.bind
  apply logCall_sat
  · intro q' hq'
    obtain ⟨a1, a2⟩ := hp.advance q q' hq' hdir.ne_zero
    have hcond : dirSign dt * (p.curTime q + p.curDt q - t1) ≤ eps := by
      rw [dirSign_of_sameDir hdir]
      exact (exact_lessEq _ _ _ _).mp hc
    have hnb' : ¬ Beyond eps dt (p.curTime q') t1 := by
      rw [not_beyond_iff]
      have e1 := dirSign_mul_self (p.curDt q)
      have e2 := dirSign_mul_self (p.curTime q' - p.curTime q)
      rw [← dirSign_of_sameDir a1, ← dirSign_of_sameDir hdir] at e2
      rw [← dirSign_of_sameDir hdir] at e1
      have : dirSign dt * (p.curTime q' - t1) = dirSign dt * (p.curTime q + p.curDt q - t1) +
        (dirSign dt * (p.curTime q' - p.curTime q) - dirSign dt * p.curDt q) := by ring
      rw [this, e1, e2]; linarith
    refine ⟨⟨⟨obs ++ [(p.curState q, p.curTime q)], ?_, ?_⟩, ?_, fun _ => hnb'⟩,
      hdir.trans (hp.dir _ _ hq' hdir.ne_zero)⟩
    · rw [observations_append, observations_append, ho]; simp [Log.observations, loggedDense]
    · exact hg.snoc ⟨q, q', hq', rfl, rfl, rfl, rfl, hdir.trans a1, a2, hnb'⟩
    · rw [stepCount_append, stepCount_append, hcnt]; simp [Log.stepCount]; omega
  · intro e _
    refine ⟨obs ++ [(p.curState q, p.curTime q)], ?_, hg.head, hg.2.2.2⟩
    rw [observations_append, observations_append, ho]; simp [Log.observations, loggedDense]

/-- Everything `integrate_adaptive` guarantees, including the situation at an exception. -/
theorem adaptiveDense_sat (eps : K) (heps : 0 ≤ eps) (p : PureDense Q S K) (hp : DenseContract p)
    (q : Q) (x : S) (t0 t1 dt : K) (hdt : dt ≠ 0) (w : Log S K) :
    (integrateAdaptiveDense (TimeArith.exact K eps) (loggedDense p) record q x t0 t1 dt w).Sat
      (fun r w' => ∃ obs tl, w'.observations = w.observations ++ obs ∧
          GoodDense p eps dt t1 x t0 r.1 tl r.2 obs ∧ w'.stepCount = w.stepCount + r.2 ∧
          ¬ Beyond eps dt t1 tl ∧ (¬ Beyond eps dt t0 t1 → ¬ Beyond eps dt tl t1))
      (fun _ w' => ∃ obs, w'.observations = w.observations ++ obs ∧
          (∀ a ∈ obs.head?, a = (x, t0)) ∧ obs.IsChain (DenseStep p eps dt t1)) True := by
  unfold integrateAdaptiveDense
  apply Res.Sat.bind
  apply logCall_sat
  swap
  · intro e _
    refine ⟨[], ?_, by simp, List.isChain_nil⟩
    rw [observations_append]; simp [Log.observations]
  intro q0 hq0
  apply Res.Sat.bind
  -- while the end is not reached, the step size has the right direction
  refine (whileM_sat (fun s' w' => AdInv p eps dt t1 x t0 w s' w' ∧
      (SameDir dt (p.curDt s'.1) ∨ (¬ Beyond eps dt t1 (p.curTime s'.1) ∧
        ¬ Beyond eps dt (p.curTime s'.1) t1)))
    (E := fun _ w' => ∃ obs, w'.observations = w.observations ++ obs ∧
          (∀ a ∈ obs.head?, a = (x, t0)) ∧ obs.IsChain (DenseStep p eps dt t1)) ?_ ?_).mono ?_
    (fun _ _ h => h) id
  · rintro s w1 ⟨hI, hdone⟩ hc
    have hd : SameDir dt (p.curDt s.1) := by
      rcases hdone with h | ⟨h1, h2⟩
      · exact h
      · exfalso
        have hlt : eps < dirSign (p.curDt s.1) * (t1 - p.curTime s.1) := (exact_less _ _ _ _).mp hc
        rw [not_beyond_iff] at h1 h2
        have hab : |t1 - p.curTime s.1| ≤ eps := by
          rw [← abs_dirSign_mul dt, abs_le]
          have : dirSign dt * (p.curTime s.1 - t1) = - (dirSign dt * (t1 - p.curTime s.1)) := by ring
          constructor <;> linarith
        rw [← abs_dirSign_mul (p.curDt s.1)] at hab
        linarith [le_abs_self (dirSign (p.curDt s.1) * (t1 - p.curTime s.1))]
    apply Res.Sat.bind
    refine (adaptiveDense_inner_sat eps p hp x t0 t1 dt w s w1 hI hd).mono ?_ (fun _ _ h => h) id
    rintro ⟨q1, n1⟩ w2 ⟨⟨⟨obs, ho, hg⟩, hcnt, hnb⟩, hd1⟩
    apply Res.Sat.bind
    apply logCall_sat
    · intro q2 hq2
      have e1 := hp.init_state _ _ _ _ _ hq2
      have e2 := hp.init_time _ _ _ _ _ hq2
      have e3 := hp.init_dt _ _ _ _ _ hq2
      simp only [loggedDense] at e1 e2 e3
      change p.curDt q2 = t1 - p.curTime q1 at e3
      refine ⟨⟨⟨obs, ?_, ?_⟩, ?_, ?_⟩, ?_⟩
      · rw [observations_append, ho]; simp [Log.observations]
      · simp only [e1, e2]; exact hg
      · rw [stepCount_append, hcnt]; simp [Log.stepCount]
      · simp only [e2]; exact hnb
      · simp only [e2, e3]
        by_cases hpos : SameDir dt (t1 - p.curTime q1)
        · exact .inl hpos
        · right
          rw [sameDir_iff hdt, not_lt] at hpos
          have hle : ¬ Beyond eps dt t1 (p.curTime q1) := by rw [not_beyond_iff]; linarith
          refine ⟨hle, ?_⟩
          by_cases hb0 : Beyond eps dt t0 t1
          · -- then the outer loop is never entered
            exfalso
            have h2 : GoodDense p eps dt t1 x t0 (p.curState s.1) (p.curTime s.1) s.2 _ :=
              hI.obs.choose_spec.2
            obtain ⟨h21, h22, h23, h24⟩ := h2
            have hlt : eps < dirSign dt * (t1 - p.curTime s.1) := by
              rw [dirSign_of_sameDir hd]; exact (exact_less _ _ _ _).mp hc
            -- times of the chain never move back, so the current time is not before t0
            have hmon : ∀ (l : List (S × K)) (a b : S × K), l.head? = some a → l.getLast? = some b →
                l.IsChain (DenseStep p eps dt t1) → 0 ≤ dirSign dt * (b.2 - a.2) := by
              intro l
              induction l with
              | nil => intro a b h; cases h
              | cons c l ih =>
                intro a b ha hb hch
                cases ha
                cases l with
                | nil => cases hb; simp
                | cons d l =>
                  rw [List.isChain_cons_cons] at hch
                  have := ih d b rfl (by simpa using hb) hch.2
                  obtain ⟨_, _, _, _, _, _, _, hdd, _⟩ := hch.1
                  have h3 := (sameDir_iff hdt).mp hdd
                  have : dirSign dt * (b.2 - c.2) = dirSign dt * (b.2 - d.2) + dirSign dt * (d.2 - c.2) := by
                    ring
                  linarith
            have := hmon _ _ _ h22 h23 h24
            rw [beyond_iff] at hb0
            simp only at this
            have e : dirSign dt * (t0 - t1) = - (dirSign dt * (t1 - p.curTime s.1)) -
              dirSign dt * (p.curTime s.1 - t0) := by ring
            linarith
          · exact hnb hb0
    · intro e _
      refine ⟨obs, ?_, fun a ha => hg.head a ?_, (List.isChain_append.mp hg.2.2.2).1⟩
      · rw [observations_append, ho]; simp [Log.observations]
      · cases obs with
        | nil => cases ha
        | cons b l => simpa using ha
  · have e1 := hp.init_state _ _ _ _ _ hq0
    have e2 := hp.init_time _ _ _ _ _ hq0
    have e3 := hp.init_dt _ _ _ _ _ hq0
    refine ⟨⟨⟨[], ?_, ?_⟩, ?_, ?_⟩, .inl ?_⟩
    · rw [observations_append]; simp [Log.observations]
    · simp only [e1, e2]; exact ⟨rfl, rfl, rfl, List.isChain_singleton _⟩
    · rw [stepCount_append]; simp [Log.stepCount]
    · simp only [e2]; exact id
    · simp only [e3]; exact SameDir.refl hdt
  · rintro ⟨q1, n1⟩ w2 ⟨⟨⟨⟨obs, ho, hg⟩, hcnt, hnb⟩, hdone⟩, hc⟩
    simp only at ho hg hcnt hnb hdone hc ⊢
    rw [record_bind]
    refine ⟨obs ++ [(p.curState q1, p.curTime q1)], p.curTime q1, ?_, hg, ?_, ?_, hnb⟩
    · rw [observations_append, ho]; simp [Log.observations, loggedDense]
    · rw [stepCount_append, hcnt]; simp [Log.stepCount]
    · rcases hdone with h | h
      · rw [not_beyond_iff, dirSign_of_sameDir h]
        exact (exact_less_false _ _ _ _).mp hc
      · exact h.1

/-- **C12**.  Whenever `integrate_adaptive` with a dense output stepper returns: the observer calls `obs`
start with the initial state and time and end with the final state, there is one more of them than steps
(the returned count), each one is reached from the previous one by one `do_step` in the direction of
integration, none is beyond `t1 (+eps)`, and the last one is within `eps` of `t1` (if `t0` was not already
beyond `t1`). -/
theorem integrate_adaptive_dense_spec (eps : K) (heps : 0 ≤ eps) (p : PureDense Q S K)
    (hp : DenseContract p) (q : Q) (x : S) (t0 t1 dt : K) (hdt : dt ≠ 0) (w w' : Log S K) (r : S × ℕ)
    (hrun : integrateAdaptiveDense (TimeArith.exact K eps) (loggedDense p) record q x t0 t1 dt w =
      .ok r w') :
    ∃ (obs : List (S × K)) (tl : K), w'.observations = w.observations ++ obs ∧
      obs.length = r.2 + 1 ∧ w'.stepCount = w.stepCount + r.2 ∧
      obs.head? = some (x, t0) ∧ obs.getLast? = some (r.1, tl) ∧
      obs.IsChain (DenseStep p eps dt t1) ∧
      obs.IsChain (fun a b => if 0 < dt then a.2 < b.2 else b.2 < a.2) ∧
      ¬ Beyond eps dt t1 tl ∧ (¬ Beyond eps dt t0 t1 → |tl - t1| ≤ eps) := by
  obtain ⟨obs, tl, h1, ⟨h2, h3, h4, h5⟩, h6, h7, h8⟩ :=
    (adaptiveDense_sat eps heps p hp q x t0 t1 dt hdt w).of_ok hrun
  refine ⟨obs, tl, h1, h2, h6, h3, h4, h5, ?_, h7, ?_⟩
  · refine h5.imp ?_
    rintro a b ⟨_, _, _, _, _, _, _, hd, _, _⟩
    rcases hd with ⟨p1, p2⟩ | ⟨p1, p2⟩
    · rw [if_pos p1]; linarith
    · rw [if_neg (not_lt.mpr p1.le)]; linarith
  · intro hfw
    have a1 := (not_beyond_iff _ _ _ _).mp h7
    have a2 := (not_beyond_iff _ _ _ _).mp (h8 hfw)
    rw [← abs_dirSign_mul dt, abs_le]
    have : dirSign dt * (t1 - tl) = - (dirSign dt * (tl - t1)) := by ring
    constructor <;> linarith

/-- **C12** (exception): the observer has seen a correct initial part of the run. -/
theorem integrate_adaptive_dense_exception (eps : K) (heps : 0 ≤ eps) (p : PureDense Q S K)
    (hp : DenseContract p) (q : Q) (x : S) (t0 t1 dt : K) (hdt : dt ≠ 0) (w w' : Log S K) (e : Err)
    (hrun : integrateAdaptiveDense (TimeArith.exact K eps) (loggedDense p) record q x t0 t1 dt w =
      .err e w') :
    ∃ obs : List (S × K), w'.observations = w.observations ++ obs ∧
      (∀ a ∈ obs.head?, a = (x, t0)) ∧ obs.IsChain (DenseStep p eps dt t1) :=
  (adaptiveDense_sat eps heps p hp q x t0 t1 dt hdt w).of_err hrun

/-- How many steps have been made compared with the distance covered. -/
def AdProg (g dt t0 t1 : K) (t : K) (n : ℕ) : Prop :=
  (0 < dirSign dt * (t1 - t) → (n : K) * g ≤ dirSign dt * (t - t0)) ∧
    (n : K) * g ≤ dirSign dt * (t - t0) + g

/-- What is known about the step size: it is at least `g`, or leads to the end, or the end is reached. -/
def AdSize (eps g dt t1 : K) (t d : K) : Prop :=
  g ≤ |d| ∨ (t + d = t1 ∧ eps < dirSign dt * (t1 - t)) ∨ (t = t1 ∧ eps < |d|)

/-- **C12** (termination).  Let `g > 0`.  If every `do_step` advances by the full current step size or at
least by `g`, and the next step size is not smaller than `g` or the step just made, then
`integrate_adaptive` returns or throws. -/
theorem integrate_adaptive_dense_terminates [Archimedean K] (eps : K) (heps : 0 ≤ eps)
    (p : PureDense Q S K) (hp : DenseContract p) (g : K) (hg : 0 < g)
    (hadv : ∀ q q', p.doStep q = .ok q' → p.curDt q ≠ 0 →
      p.curTime q' = p.curTime q + p.curDt q ∨ g ≤ |p.curTime q' - p.curTime q|)
    (hnext : ∀ q q', p.doStep q = .ok q' → p.curDt q ≠ 0 →
      min g |p.curTime q' - p.curTime q| ≤ |p.curDt q'|)
    (q : Q) (x : S) (t0 t1 dt : K) (hdt : g ≤ |dt|) (w : Log S K) :
    (∃ r w', integrateAdaptiveDense (TimeArith.exact K eps) (loggedDense p) record q x t0 t1 dt w =
      .ok r w') ∨
    (∃ e w', integrateAdaptiveDense (TimeArith.exact K eps) (loggedDense p) record q x t0 t1 dt w =
      .err e w') := by
  have hdt0 : dt ≠ 0 := by
    intro h; rw [h, abs_zero] at hdt; exact absurd hdt (not_le.mpr hg)
  obtain ⟨N, hN⟩ := Archimedean.arch (dirSign dt * (t1 - t0) + eps + g) hg
  rw [nsmul_eq_mul] at hN
  -- the number of steps is bounded as long as the time is not beyond the end
  have hbound : ∀ t n, AdProg g dt t0 t1 t n → dirSign dt * (t - t1) ≤ eps → n ≤ N := by
    intro t n hpr hle
    by_contra hlt
    have h1 : (N : K) + 1 ≤ n := by exact_mod_cast Nat.lt_iff_add_one_le.mp (not_le.mp hlt)
    have h2 : ((N : K) + 1) * g ≤ n * g := mul_le_mul_of_nonneg_right h1 hg.le
    have h3 := hpr.2
    have : dirSign dt * (t - t0) = dirSign dt * (t - t1) + dirSign dt * (t1 - t0) := by ring
    have h4 : ((N : K) + 1) * g = N * g + g := by ring
    linarith
  -- one step
  have hstep : ∀ q q' n, p.doStep q = .ok q' → SameDir dt (p.curDt q) →
      dirSign dt * (p.curTime q + p.curDt q - t1) ≤ eps →
      AdProg g dt t0 t1 (p.curTime q) n → AdSize eps g dt t1 (p.curTime q) (p.curDt q) →
      SameDir dt (p.curDt q') ∧ dirSign dt * (p.curTime q' - t1) ≤ eps ∧
      AdProg g dt t0 t1 (p.curTime q') (n + 1) ∧ AdSize eps g dt t1 (p.curTime q') (p.curDt q') := by
    intro q q' n hq hd hcond hpr hsz
    obtain ⟨a1, a2⟩ := hp.advance q q' hq hd.ne_zero
    have e1 := dirSign_mul_self (p.curDt q)
    have e2 := dirSign_mul_self (p.curTime q' - p.curTime q)
    rw [← dirSign_of_sameDir a1, ← dirSign_of_sameDir hd] at e2
    rw [← dirSign_of_sameDir hd] at e1
    have hle : dirSign dt * (p.curTime q' - t1) ≤ eps := by
      have : dirSign dt * (p.curTime q' - t1) = dirSign dt * (p.curTime q + p.curDt q - t1) +
        (dirSign dt * (p.curTime q' - p.curTime q) - dirSign dt * p.curDt q) := by ring
      rw [this, e1, e2]; linarith
    refine ⟨hd.trans (hp.dir _ _ hq hd.ne_zero), hle, ?_⟩
    have hnx := hnext _ _ hq hd.ne_zero
    -- the step was long, or it reached the end exactly
    have hcases : g ≤ |p.curTime q' - p.curTime q| ∨
        (p.curTime q' = t1 ∧ eps < dirSign dt * (t1 - p.curTime q)) := by
      rcases hsz with h | ⟨h1, h2⟩ | ⟨h1, h2⟩
      · rcases hadv _ _ hq hd.ne_zero with h' | h'
        · left; rw [h', add_sub_cancel_left]; exact h
        · exact .inl h'
      · rcases hadv _ _ hq hd.ne_zero with h' | h'
        · right; exact ⟨by rw [h', h1], h2⟩
        · exact .inl h'
      · exfalso
        rw [h1, add_sub_cancel_left, e1] at hcond
        linarith
    have hdist : dirSign dt * (p.curTime q' - t0) =
        dirSign dt * (p.curTime q - t0) + |p.curTime q' - p.curTime q| := by rw [← e2]; ring
    rcases hcases with hc | ⟨hc1, hc2⟩
    · refine ⟨⟨fun hpos => ?_, ?_⟩, .inl ?_⟩
      · have : 0 < dirSign dt * (t1 - p.curTime q) := by
          have e : dirSign dt * (t1 - p.curTime q) = dirSign dt * (t1 - p.curTime q') +
            dirSign dt * (p.curTime q' - p.curTime q) := by ring
          rw [e, e2]; linarith [abs_nonneg (p.curTime q' - p.curTime q)]
        have := hpr.1 this
        rw [hdist]; push_cast; linarith
      · have := hpr.2
        rw [hdist]; push_cast; linarith
      · rw [min_eq_left hc] at hnx; exact hnx
    · have hpos : 0 < dirSign dt * (t1 - p.curTime q) := by linarith
      have h1 := hpr.1 hpos
      refine ⟨⟨fun h => ?_, ?_⟩, ?_⟩
      · rw [hc1] at h; simp at h
      · rw [hdist]; push_cast; linarith [abs_nonneg (p.curTime q' - p.curTime q)]
      · have hlen : |p.curTime q' - p.curTime q| = dirSign dt * (t1 - p.curTime q) := by
          rw [← e2, hc1]
        rcases min_le_iff.mp hnx with h | h
        · exact .inl h
        · right; right; exact ⟨hc1, by linarith⟩
  have key : (integrateAdaptiveDense (TimeArith.exact K eps) (loggedDense p) record q x t0 t1 dt w).Sat
      (fun _ _ => True) (fun _ _ => True) False := by
    unfold integrateAdaptiveDense
    apply Res.Sat.bind
    apply logCall_sat
    swap
    · intro _ _; trivial
    intro q0 hq0
    apply Res.Sat.bind
    refine (whileM_sat_total (W := Log S K)
      (I := fun s _ => AdProg g dt t0 t1 (p.curTime s.1) s.2 ∧
        (|t1 - p.curTime s.1| ≤ eps ∨
          SameDir dt (p.curDt s.1) ∧ AdSize eps g dt t1 (p.curTime s.1) (p.curDt s.1)))
      (E := fun _ _ => True) (D := False)
      (μ := fun s _ => 2 * (N + 1 - s.2) + if dirSign dt * (p.curTime s.1 + p.curDt s.1 - t1) ≤ eps then 0
        else 1) ?_ ?_).mono
      (fun _ _ _ => trivial) (fun _ _ h => h) id
    · rintro ⟨q1, n1⟩ w1 ⟨hpr, hor⟩ hc
      simp only at hpr hor
      have hc' : eps < dirSign (p.curDt q1) * (t1 - p.curTime q1) := (exact_less _ _ _ _).mp hc
      have hor' : SameDir dt (p.curDt q1) ∧ AdSize eps g dt t1 (p.curTime q1) (p.curDt q1) := by
        rcases hor with h | h
        · exfalso
          rw [← abs_dirSign_mul (p.curDt q1)] at h
          linarith [le_abs_self (dirSign (p.curDt q1) * (t1 - p.curTime q1))]
        · exact h
      obtain ⟨hd, hsz⟩ := hor'
      rw [← dirSign_of_sameDir hd] at hc'
      apply Res.Sat.bind
      refine (whileM_sat_total (W := Log S K)
        (I := fun s _ => AdProg g dt t0 t1 (p.curTime s.1) s.2 ∧ SameDir dt (p.curDt s.1) ∧
          AdSize eps g dt t1 (p.curTime s.1) (p.curDt s.1) ∧
          dirSign dt * (p.curTime s.1 - t1) ≤ eps ∧ n1 ≤ s.2 ∧
          (s.2 = n1 → p.curTime s.1 = p.curTime q1 ∧ p.curDt s.1 = p.curDt q1))
        (E := fun _ _ => True) (D := False) (μ := fun s _ => N + 1 - s.2) ?_ ?_).mono ?_
        (fun _ _ h => h) id
      · rintro ⟨q2, n2⟩ w2 ⟨b1, b2, b3, b4, b5, b6⟩ hc2
        simp only at b1 b2 b3 b4 b5 b6
        rw [record_bind]
        apply Res.Sat.bind
        apply logCall_sat
        swap
        · intro _ _; trivial
        intro q3 hq3
        have hcond : dirSign dt * (p.curTime q2 + p.curDt q2 - t1) ≤ eps := by
          rw [dirSign_of_sameDir b2]; exact (exact_lessEq _ _ _ _).mp hc2
        obtain ⟨c1, c2, c3, c4⟩ := hstep q2 q3 n2 hq3 b2 hcond b1 b3
        have hN2 := hbound _ _ b1 b4
        refine ⟨⟨c3, c1, c4, c2, by simp only; omega, fun h => ?_⟩, by simp only; omega⟩
        simp only at h; omega
      · have : dirSign dt * (p.curTime q1 - t1) = - (dirSign dt * (t1 - p.curTime q1)) := by ring
        exact ⟨hpr, hd, hsz, by linarith, le_rfl, fun _ => ⟨rfl, rfl⟩⟩
      · rintro ⟨q2, n2⟩ w2 ⟨⟨b1, b2, b3, b4, b5, b6⟩, hc2⟩
        simp only at b1 b2 b3 b4 b5 b6
        have hcond : eps < dirSign dt * (p.curTime q2 + p.curDt q2 - t1) := by
          rw [dirSign_of_sameDir b2]; exact (exact_lessEq_false _ _ _ _).mp hc2
        apply Res.Sat.bind
        apply logCall_sat
        swap
        · intro _ _; trivial
        intro q3 hq3
        have e2 := hp.init_time _ _ _ _ _ hq3
        have e3 := hp.init_dt _ _ _ _ _ hq3
        simp only [loggedDense] at e2 e3
        change p.curDt q3 = t1 - p.curTime q2 at e3
        have hN2 := hbound _ _ b1 b4
        refine ⟨⟨by simpa only [e2] using b1, ?_⟩, ?_⟩
        · simp only [e2, e3]
          by_cases hfar : eps < dirSign dt * (t1 - p.curTime q2)
          · right
            refine ⟨(sameDir_iff hdt0).mpr (by linarith), .inr (.inl ⟨by ring, hfar⟩)⟩
          · left
            rw [← abs_dirSign_mul dt, abs_le]
            have : dirSign dt * (p.curTime q2 - t1) = - (dirSign dt * (t1 - p.curTime q2)) := by ring
            constructor <;> linarith
        · simp only [e2, e3]
          have h0 : dirSign dt * (p.curTime q2 + (t1 - p.curTime q2) - t1) ≤ eps := by
            have : dirSign dt * (p.curTime q2 + (t1 - p.curTime q2) - t1) = 0 := by ring
            rw [this]; exact heps
          rw [if_pos h0]
          by_cases hn : n2 = n1
          · obtain ⟨f1, f2⟩ := b6 hn
            rw [if_neg (by rw [← f1, ← f2]; exact not_le.mpr hcond), hn]
            omega
          · split_ifs <;> omega
    · have e2 := hp.init_time _ _ _ _ _ hq0
      have e3 := hp.init_dt _ _ _ _ _ hq0
      simp only [e2, e3]
      exact ⟨⟨fun _ => by simp, by simp [hg.le]⟩, .inr ⟨SameDir.refl hdt0, .inl hdt⟩⟩
  revert key
  cases integrateAdaptiveDense (TimeArith.exact K eps) (loggedDense p) record q x t0 t1 dt w with
  | ok r w' => intro _; exact .inl ⟨r, w', rfl⟩
  | err e w' => intro _; exact .inr ⟨e, w', rfl⟩
  | ub => intro h; exact h.elim
  | div => intro h; exact h.elim

/-- Non-vacuity of C12: a dense output stepper that doubles its step size (contract:
`rampDense_contract`) satisfies the termination hypotheses with `g = 1`. -/
example : (∀ q q', (rampDense (2:ℚ)).doStep q = .ok q' → (rampDense (2:ℚ)).curDt q ≠ 0 →
      (rampDense (2:ℚ)).curTime q' = (rampDense (2:ℚ)).curTime q + (rampDense (2:ℚ)).curDt q ∨
      1 ≤ |(rampDense (2:ℚ)).curTime q' - (rampDense (2:ℚ)).curTime q|) ∧
    (∀ q q', (rampDense (2:ℚ)).doStep q = .ok q' → (rampDense (2:ℚ)).curDt q ≠ 0 →
      min 1 |(rampDense (2:ℚ)).curTime q' - (rampDense (2:ℚ)).curTime q| ≤
        |(rampDense (2:ℚ)).curDt q'|) := by
  constructor
  · rintro q q' ⟨⟩ _; exact .inl rfl
  · rintro ⟨x, t, d⟩ q' ⟨⟩ _
    simp only [rampDense, add_sub_cancel_left, abs_mul, abs_two]
    refine (min_le_right _ _).trans ?_
    linarith [abs_nonneg d]

end
end Verif
