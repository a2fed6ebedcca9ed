import Verif.Spec.BulirschStoerDense
import Verif.Lemmas.BulirschStoerStep

/-!
# The tables of `bulirsch_stoer_dense_out`
-/

namespace Verif
set_option linter.unusedSectionVars false
variable {K V W : Type}

/-- the members that a sweep does not touch -/
structure SweepFrame (s s' : BsdState K V W) : Prop where
  ctl : s'.ctl = s.ctl
  kFinal : s'.kFinal = s.kFinal
  t : s'.t = s.t
  dt : s'.dt = s.dt
  tLast : s'.tLast = s.tLast
  cur : s'.cur = s.cur
  old : s'.old = s.old
  curD : s'.curD = s.curD
  oldD : s'.oldD = s.oldD
  table : s'.table = s.table
  diffs : s'.diffs = s.diffs

theorem SweepFrame.refl (s : BsdState K V W) : SweepFrame s s := ⟨rfl, rfl, rfl, rfl, rfl, rfl, rfl, rfl, rfl, rfl, rfl⟩

theorem SweepFrame.trans {s s' s'' : BsdState K V W} (h : SweepFrame s s') (h' : SweepFrame s' s'') : SweepFrame s s'' :=
  ⟨h'.ctl.trans h.ctl, h'.kFinal.trans h.kFinal, h'.t.trans h.t, h'.dt.trans h.dt, h'.tLast.trans h.tLast, h'.cur.trans h.cur, h'.old.trans h.old,
    h'.curD.trans h.curD, h'.oldD.trans h.oldD, h'.table.trans h.table, h'.diffs.trans h.diffs⟩

theorem bsdCall_sat {sys : Sys K V W} (hs : sys.Defined) (x : V) (t : K) (s : BsdState K V W) :
    (bsdCall sys x t s).Sat (fun d s' => sys x t s.world = .ok d s'.world ∧ s' = s.setWorld s'.world)
      (fun e s' => sys x t s.world = .err e s'.world ∧ s' = s.setWorld s'.world) True := by
  unfold bsdCall
  have := hs x t s.world
  cases hr : sys x t s.world with
  | ok d w => exact ⟨rfl, rfl⟩
  | err e w => exact ⟨rfl, rfl⟩
  | ub => exact this hr
  | div => trivial

theorem getDeriv_ok (j i : ℕ) (h : j < 9 ∧ i < bsdSteps j) (s : BsdState K V W) : getDeriv j i s = .ok (s.derivs j i) s := by
  unfold getDeriv
  rw [M.bind_ok (chk_ok h _)]
  rfl

theorem setDeriv_ok (j i : ℕ) (v : V) (h : j < 9 ∧ i < bsdSteps j) (s : BsdState K V W) :
    setDeriv j i v s = .ok () (s.setDerivs j (Function.update (s.derivs j) i v)) := by
  unfold setDeriv
  rw [M.bind_ok (chk_ok h _)]
  rfl

theorem setCenter_ok (k : ℕ) (v : V) (h : k < 9) (s : BsdState K V W) : setCenter k v s = .ok () (s.setMp (Function.update s.mp k v)) := by
  unfold setCenter
  rw [M.bind_ok (chk_ok h _)]
  rfl

theorem getDiff_ok (j i : ℕ) (h : j < 18 ∧ i < 9 - j / 2) (s : BsdState K V W) : getDiff j i s = .ok (s.diffs j i) s := by
  unfold getDiff
  rw [M.bind_ok (chk_ok h _)]
  rfl

theorem setDiff_ok (j i : ℕ) (v : V) (h : j < 18 ∧ i < 9 - j / 2) (s : BsdState K V W) :
    setDiff j i v s = .ok () (s.setDiffs j (Function.update (s.diffs j) i v)) := by
  unfold setDiff
  rw [M.bind_ok (chk_ok h _)]
  rfl

section
variable [Add K] [Sub K] [Mul K] [Div K] [Neg K] [IntCast K] [StateOps K V]

/-- what a sweep leaves in the tables -/
structure Swept (k : ℕ) (S : Sweep V) (s s' : BsdState K V W) : Prop where
  frame : SweepFrame s s'
  mp : s'.mp k = S.p (bsdSteps k / 2)
  mp_ne : ∀ j, j ≠ k → s'.mp j = s.mp j
  derivs : ∀ i, i < bsdSteps k → s'.derivs k i = S.q (i + 1)
  derivs_ne : ∀ j, j ≠ k → s'.derivs j = s.derivs j

theorem bsdMidLoop_sat {sys : Sys K V W} (hs : sys.Defined) (h : K) (k : ℕ) (hk : k < 9) (s0 : BsdState K V W) :
    ∀ (n i : ℕ) (th : K) (S : Sweep V) (s : BsdState K V W), 1 ≤ i → n + i = bsdSteps k → SweepFrame s0 s →
      (∀ j, j ≠ k → s.mp j = s0.mp j) → (∀ j, j ≠ k → s.derivs j = s0.derivs j) →
      (∀ j, j < i → s.derivs k j = S.q (j + 1)) → (bsdSteps k / 2 ≤ i → s.mp k = S.p (bsdSteps k / 2)) →
      (bsdMidLoop sys h (lit 2 * h) (bsdSteps k) k n i th (S.p (i - 1)) (S.p i) s).Sat
        (fun r s' => ∃ S', sweepLoop sys h n i th S s.world = .ok S' s'.world ∧ r = (S'.p (bsdSteps k - 1), S'.p (bsdSteps k)) ∧ Swept k S' s0 s')
        (fun e s' => sweepLoop sys h n i th S s.world = .err e s'.world ∧ SweepFrame s0 s') True := by
  intro n
  induction n with
  | zero =>
    intro i th S s hi hn hF hm hd hq hc
    have : i = bsdSteps k := by omega
    subst this
    exact ⟨S, rfl, rfl, hF, hc (Nat.div_le_self _ _), hm, hq, hd⟩
  | succ n ih =>
    intro i th S s hi hn hF hm hd hq hc
    have hst : bsdSteps k = 2 + 4 * k := rfl
    rw [bsdMidLoop, M.bind_ok (getDeriv_ok k (i - 1) ⟨hk, by omega⟩ s), hq (i - 1) (by omega), show i - 1 + 1 = i by omega]
    obtain ⟨s1, e1, w1, F1, m1, mne1, d1⟩ : ∃ s1 : BsdState K V W,
        (if i = bsdSteps k / 2 - 1 then setCenter k (lin [((lit 1 : K), S.p (i - 1)), (lit 2 * h, S.q i)]) else pure () : M _ Unit) s = .ok () s1 ∧
        s1.world = s.world ∧ SweepFrame s s1 ∧
        (i + 1 = bsdSteps k / 2 → s1.mp k = lin [((lit 1 : K), S.p (i - 1)), (lit 2 * h, S.q i)]) ∧
        (∀ j, (j ≠ k ∨ i + 1 ≠ bsdSteps k / 2) → s1.mp j = s.mp j) ∧ s1.derivs = s.derivs := by
      by_cases hci : i = bsdSteps k / 2 - 1
      · rw [if_pos hci]
        refine ⟨_, setCenter_ok k _ hk s, rfl, ⟨rfl, rfl, rfl, rfl, rfl, rfl, rfl, rfl, rfl, rfl, rfl⟩, ?_, ?_, rfl⟩
        · intro _
          show Function.update s.mp k _ k = _
          rw [Function.update_self]
        · intro j hj
          show Function.update s.mp k _ j = _
          rcases hj with hj | hj
          · rw [Function.update_of_ne hj]
          · omega
      · rw [if_neg hci]
        exact ⟨s, rfl, rfl, SweepFrame.refl s, fun h => by omega, fun _ _ => rfl, rfl⟩
    rw [M.bind_ok e1]
    refine Res.Sat.bind ?_
    have hcall := bsdCall_sat hs (lin [((lit 1 : K), S.p (i - 1)), (lit 2 * h, S.q i)]) (th + h) s1
    refine hcall.mono ?_ ?_ (fun _ => trivial)
    · rintro d s2 ⟨c1, c2⟩
      rw [M.bind_ok (setDeriv_ok k i d ⟨hk, by omega⟩ s2)]
      rw [w1] at c1
      have key := ih (i + 1) (th + h) ⟨Function.update S.p (i + 1) (lin [((lit 1 : K), S.p (i - 1)), (lit 2 * h, S.q i)]), Function.update S.q (i + 1) d⟩
        (s2.setDerivs k (Function.update (s2.derivs k) i d)) (by omega) (by omega)
        (by
          refine (hF.trans F1).trans ?_
          rw [c2]
          exact ⟨rfl, rfl, rfl, rfl, rfl, rfl, rfl, rfl, rfl, rfl, rfl⟩)
        (by
          intro j hj
          show s2.mp j = _
          rw [c2]
          exact (mne1 j (Or.inl hj)).trans (hm j hj))
        (by
          intro j hj
          show Function.update s2.derivs k _ j = _
          rw [Function.update_of_ne hj, c2]
          show s1.derivs j = _
          rw [d1]
          exact hd j hj)
        (by
          intro j hj
          show Function.update s2.derivs k (Function.update (s2.derivs k) i d) k j = Function.update S.q (i + 1) d (j + 1)
          rw [Function.update_self]
          by_cases hji : j = i
          · subst hji
            rw [Function.update_self, Function.update_self]
          · rw [Function.update_of_ne hji, Function.update_of_ne (by omega), c2]
            show s1.derivs k j = _
            rw [d1]
            exact hq j (by omega))
        (by
          intro hle
          show s2.mp k = Function.update S.p (i + 1) _ (bsdSteps k / 2)
          rw [c2]
          show s1.mp k = _
          by_cases hci : i + 1 = bsdSteps k / 2
          · rw [m1 hci, ← hci, Function.update_self]
          · rw [mne1 k (Or.inr hci), Function.update_of_ne (fun h => hci h.symm)]
            exact hc (by omega))
      have hp : (Function.update S.p (i + 1) (lin [((lit 1 : K), S.p (i - 1)), (lit 2 * h, S.q i)])) (i + 1 - 1) = S.p i := by
        rw [Function.update_of_ne (by omega), show i + 1 - 1 = i by omega]
      have hp' : (Function.update S.p (i + 1) (lin [((lit 1 : K), S.p (i - 1)), (lit 2 * h, S.q i)])) (i + 1)
          = lin [((lit 1 : K), S.p (i - 1)), (lit 2 * h, S.q i)] := Function.update_self ..
      dsimp only at key
      rw [hp, hp'] at key
      refine key.mono ?_ ?_ (fun h => h)
      · rintro r s' ⟨S', a1, a2, a3⟩
        refine ⟨S', ?_, a2, a3⟩
        rw [sweepLoop, M.bind_ok c1]
        exact a1
      · rintro e s' ⟨a1, a2⟩
        refine ⟨?_, a2⟩
        rw [sweepLoop, M.bind_ok c1]
        exact a1
    · rintro e s2 ⟨c1, c2⟩
      rw [w1] at c1
      refine ⟨by rw [sweepLoop, M.bind_err c1], ?_⟩
      refine (hF.trans F1).trans ?_
      rw [c2]
      exact ⟨rfl, rfl, rfl, rfl, rfl, rfl, rfl, rfl, rfl, rfl, rfl⟩

theorem bsdMidpoint_sat {sys : Sys K V W} (hs : sys.Defined) (x d : V) (t dt : K) (k : ℕ) (hk : k < 9) (s : BsdState K V W) :
    (bsdMidpoint sys x d t dt k s).Sat
      (fun y s' => ∃ S, sweep (2 + 4 * k) sys x d t dt s.world = .ok S s'.world ∧ y = S.result (2 + 4 * k) (dt / lit (2 + 4 * k : ℕ)) ∧ Swept k S s s')
      (fun e s' => sweep (2 + 4 * k) sys x d t dt s.world = .err e s'.world ∧ SweepFrame s s') True := by
  have hst : bsdSteps k = 2 + 4 * k := rfl
  unfold bsdMidpoint
  obtain ⟨s1, e1, w1, F1, m1, mne1, d1⟩ : ∃ s1 : BsdState K V W,
      (if bsdSteps k = 2 then setCenter k (lin [((lit 1 : K), x), (dt / lit (bsdSteps k : ℕ), d)]) else pure () : M _ Unit) s = .ok () s1 ∧
      s1.world = s.world ∧ SweepFrame s s1 ∧ (bsdSteps k / 2 ≤ 1 → s1.mp k = lin [((lit 1 : K), x), (dt / lit (bsdSteps k : ℕ), d)]) ∧
      (∀ j, j ≠ k → s1.mp j = s.mp j) ∧ s1.derivs = s.derivs := by
    by_cases hci : bsdSteps k = 2
    · rw [if_pos hci]
      refine ⟨_, setCenter_ok k _ hk s, rfl, ⟨rfl, rfl, rfl, rfl, rfl, rfl, rfl, rfl, rfl, rfl, rfl⟩, ?_, ?_, rfl⟩
      · intro _
        show Function.update s.mp k _ k = _
        rw [Function.update_self]
      · intro j hj
        show Function.update s.mp k _ j = _
        rw [Function.update_of_ne hj]
    · rw [if_neg hci]
      exact ⟨s, rfl, rfl, SweepFrame.refl s, fun h => by omega, fun _ _ => rfl, rfl⟩
  rw [M.bind_ok e1]
  refine Res.Sat.bind ?_
  refine (bsdCall_sat hs _ _ s1).mono ?_ ?_ (fun _ => trivial)
  · rintro d0 s2 ⟨c1, c2⟩
    rw [M.bind_ok (setDeriv_ok k 0 d0 ⟨hk, by omega⟩ s2)]
    rw [w1] at c1
    refine Res.Sat.bind ?_
    have key := bsdMidLoop_sat hs (dt / lit (bsdSteps k : ℕ)) k hk s (bsdSteps k - 1) 1 (t + dt / lit (bsdSteps k : ℕ))
      ⟨fun i => if i = 0 then x else lin [((lit 1 : K), x), (dt / lit (bsdSteps k : ℕ), d)], fun i => if i = 0 then d else d0⟩
      (s2.setDerivs k (Function.update (s2.derivs k) 0 d0)) le_rfl (by omega)
      (by
        refine F1.trans ?_
        rw [c2]
        exact ⟨rfl, rfl, rfl, rfl, rfl, rfl, rfl, rfl, rfl, rfl, rfl⟩)
      (by
        intro j hj
        show s2.mp j = _
        rw [c2]
        exact mne1 j hj)
      (by
        intro j hj
        show Function.update s2.derivs k _ j = _
        rw [Function.update_of_ne hj, c2]
        show s1.derivs j = _
        rw [d1])
      (by
        intro j hj
        have : j = 0 := by omega
        subst this
        show Function.update s2.derivs k (Function.update (s2.derivs k) 0 d0) k 0 = _
        rw [Function.update_self, Function.update_self]
        rfl)
      (by
        intro hle
        show s2.mp k = _
        rw [c2]
        show s1.mp k = _
        rw [m1 hle]
        have : bsdSteps k / 2 = 1 := by omega
        rw [this]
        rfl)
    refine Res.Sat.mono key ?_ ?_ (fun h => h)
    · rintro r s3 ⟨S', a1, a2, a3⟩
      rw [M.bind_ok (getDeriv_ok k _ ⟨hk, by omega⟩ s3)]
      refine ⟨S', ?_, ?_, a3⟩
      · show sweep (bsdSteps k) sys x d t dt s.world = _
        unfold sweep
        rw [M.bind_ok c1]
        exact a1
      · rw [a2, a3.derivs _ (by omega), show bsdSteps k - 1 + 1 = bsdSteps k by omega]
        rfl
    · rintro e s3 ⟨a1, a2⟩
      refine ⟨?_, a2⟩
      show sweep (bsdSteps k) sys x d t dt s.world = _
      unfold sweep
      rw [M.bind_ok c1]
      exact a1
  · rintro e s2 ⟨c1, c2⟩
    rw [w1] at c1
    refine ⟨?_, ?_⟩
    · show sweep (bsdSteps k) sys x d t dt s.world = _
      unfold sweep
      rw [M.bind_err c1]
    · refine F1.trans ?_
      rw [c2]
      exact ⟨rfl, rfl, rfl, rfl, rfl, rfl, rfl, rfl, rfl, rfl, rfl⟩

end
end Verif
