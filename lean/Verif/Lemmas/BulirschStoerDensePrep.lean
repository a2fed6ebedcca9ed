import Verif.Lemmas.BulirschStoerDense

/-!
# `prepare_dense_output` and `calc_state` stay inside the tables
-/

namespace Verif
set_option linter.unusedSectionVars false
variable {K V W : Type}

/-- what `prepare_dense_output` does not touch: everything but `m_mp_states` and `m_diffs` -/
structure PrepFrame (s s' : BsdState K V W) : Prop where
  ctl : s'.ctl = s.ctl
  kFinal : s'.kFinal = s.kFinal
  t : s'.t = s.t
  dt : s'.dt = s.dt
  tLast : s'.tLast = s.tLast
  cur : s'.cur = s.cur
  old : s'.old = s.old
  curD : s'.curD = s.curD
  oldD : s'.oldD = s.oldD
  table : s'.table = s.table
  derivs : s'.derivs = s.derivs
  world : s'.world = s.world

theorem PrepFrame.refl (s : BsdState K V W) : PrepFrame s s := ⟨rfl, rfl, rfl, rfl, rfl, rfl, rfl, rfl, rfl, rfl, rfl, rfl⟩

theorem PrepFrame.trans {s s' s'' : BsdState K V W} (h : PrepFrame s s') (h' : PrepFrame s' s'') : PrepFrame s s'' :=
  ⟨h'.ctl.trans h.ctl, h'.kFinal.trans h.kFinal, h'.t.trans h.t, h'.dt.trans h.dt, h'.tLast.trans h.tLast, h'.cur.trans h.cur, h'.old.trans h.old,
    h'.curD.trans h.curD, h'.oldD.trans h.oldD, h'.table.trans h.table, h'.derivs.trans h.derivs, h'.world.trans h.world⟩

theorem PrepFrame.setDiffs (s : BsdState K V W) (kappa : ℕ) (f : ℕ → V) : PrepFrame s (s.setDiffs kappa f) :=
  ⟨rfl, rfl, rfl, rfl, rfl, rfl, rfl, rfl, rfl, rfl, rfl, rfl⟩

theorem PrepFrame.setMp (s : BsdState K V W) (f : ℕ → V) : PrepFrame s (s.setMp f) := ⟨rfl, rfl, rfl, rfl, rfl, rfl, rfl, rfl, rfl, rfl, rfl, rfl⟩

theorem foldN_ok {S α : Type} {body : ℕ → α → M S α} (I : ℕ → α → S → Prop) (n lo : ℕ)
    (hb : ∀ i a s, lo ≤ i → i < lo + n → I i a s → ∃ a' s', body i a s = .ok a' s' ∧ I (i + 1) a' s') :
    ∀ a s, I lo a s → ∃ a' s', foldN body n lo a s = .ok a' s' ∧ I (lo + n) a' s' := by
  induction n generalizing lo with
  | zero => exact fun a s hs => ⟨a, s, rfl, hs⟩
  | succ n ih =>
    intro a s hs
    obtain ⟨a1, s1, e1, h1⟩ := hb lo a s le_rfl (by omega) hs
    obtain ⟨a2, s2, e2, h2⟩ := ih (lo + 1) (fun i a s hi hi' => hb i a s (by omega) (by omega)) a1 s1 h1
    exact ⟨a2, s2, by rw [foldN, M.bind_ok e1]; exact e2, by rw [show lo + (n + 1) = lo + 1 + n by omega]; exact h2⟩

theorem forUp_inv {S : Type} {body : ℕ → M S Unit} (I : ℕ → S → Prop) (lo hi : ℕ) (hle : lo ≤ hi)
    (hb : ∀ i s, lo ≤ i → i < hi → I i s → ∃ s', body i s = .ok () s' ∧ I (i + 1) s') (s : S) (hs : I lo s) :
    ∃ s', forUp lo hi body s = .ok () s' ∧ I hi s' := by
  have key : ∀ (n lo : ℕ), lo + n = hi → (∀ i s, lo ≤ i → i < hi → I i s → ∃ s', body i s = .ok () s' ∧ I (i + 1) s') →
      ∀ s, I lo s → ∃ s', forN body n lo s = .ok () s' ∧ I hi s' := by
    intro n
    induction n with
    | zero => intro lo h _ s hs; subst h; exact ⟨s, rfl, hs⟩
    | succ n ih =>
      intro lo h hb s hs
      obtain ⟨s1, e1, h1⟩ := hb lo s le_rfl (by omega) hs
      obtain ⟨s2, e2, h2⟩ := ih (lo + 1) (by omega) (fun i s h1 h2 => hb i s (by omega) h2) s1 h1
      exact ⟨s2, by rw [forN, M.bind_ok e1]; exact e2, h2⟩
  exact key (hi - lo) lo (by omega) hb s hs

section
variable [Add K] [Sub K] [Mul K] [Div K] [Neg K] [IntCast K] [StateOps K V]

/-- one term of a central difference: `q_{n}` of the sweep, `q_0` is the derivative at the beginning of the step -/
theorem bsdDiffStep_ok (j kappa : ℕ) (hj : j < 9) (hk : kappa < 2 * j + 2) (fac : K) (c : ℕ) (hc : 1 ≤ c) (sign : K) (s : BsdState K V W) :
    bsdDiffStep j kappa fac c sign s = .ok (sign * lit (-1)) (s.setDiffs kappa (Function.update (s.diffs kappa) (j - kappa / 2)
      (if 2 * c ≤ 2 * j + kappa then lin [((lit 1 : K), s.diffs kappa (j - kappa / 2)),
          (sign * fac * lit (Nat.choose kappa c), s.derivs j (2 * j + kappa - 2 * c))]
        else lin [((lit 1 : K), s.diffs kappa (j - kappa / 2)), (sign * fac, s.curD)]))) := by
  have hst : bsdSteps j / 2 - 1 = 2 * j := by unfold bsdSteps; omega
  have hst' : bsdSteps j = 2 + 4 * j := rfl
  unfold bsdDiffStep
  rw [M.bind_ok (getDiff_ok kappa (j - kappa / 2) (by omega) s), hst]
  split
  · rw [bind_assoc, M.bind_ok (getDeriv_ok j _ (by omega) s), M.bind_ok (setDiff_ok kappa (j - kappa / 2) _ (by omega) s)]
    rfl
  · rw [bind_assoc, M.bind_ok (m := M.get) (w' := s) (a := s) rfl, M.bind_ok (setDiff_ok kappa (j - kappa / 2) _ (by omega) s)]
    rfl

theorem bsdDiff_ok (j kappa : ℕ) (hj : j < 9) (hk : kappa < 2 * j + 2) (fac : K) (s : BsdState K V W) :
    ∃ s', bsdDiff j kappa fac s = .ok () s' ∧ PrepFrame s s' ∧ s'.mp = s.mp := by
  have hst : bsdSteps j / 2 - 1 = 2 * j := by unfold bsdSteps; omega
  have hst' : bsdSteps j = 2 + 4 * j := rfl
  unfold bsdDiff
  split
  · rw [hst, M.bind_ok (getDeriv_ok j _ (by omega) s), setDiff_ok 0 j _ (by omega) s]
    exact ⟨_, rfl, PrepFrame.setDiffs _ _ _, rfl⟩
  · rw [hst, M.bind_ok (getDeriv_ok j _ (by omega) s), M.bind_ok (setDiff_ok kappa (j - kappa / 2) _ (by omega) s)]
    obtain ⟨a', s', e, h⟩ := foldN_ok (body := bsdDiffStep (V := V) (W := W) j kappa fac) (fun _ _ s' => PrepFrame s s' ∧ s'.mp = s.mp) kappa 1
      (fun i a s1 hi _ hs1 => ⟨_, _, bsdDiffStep_ok j kappa hj hk fac i hi a s1, hs1.1.trans (PrepFrame.setDiffs _ _ _), hs1.2⟩)
      (lit (-1)) (s.setDiffs kappa (Function.update (s.diffs kappa) (j - kappa / 2) (lin [(fac, s.derivs j (2 * j + kappa))])))
      ⟨PrepFrame.setDiffs _ _ _, rfl⟩
    rw [M.bind_ok e]
    exact ⟨s', rfl, h⟩

theorem bsdPrepareRow_ok (dt : K) (j : ℕ) (hj : j < 9) (s : BsdState K V W) :
    ∃ s', bsdPrepareRow dt j s = .ok () s' ∧ PrepFrame s s' := by
  unfold bsdPrepareRow
  obtain ⟨a', s', e, h⟩ := foldN_ok (body := bsdDiffNext (V := V) (W := W) (lit (bsdSteps j) / (lit 2 * dt)) j) (fun _ _ s' => PrepFrame s s')
    (2 * j + 2) 0
    (fun i a s1 _ hi hs1 => by
      obtain ⟨s2, e2, h2, -⟩ := bsdDiff_ok j i hj (by omega) a s1
      refine ⟨a * (lit (bsdSteps j) / (lit 2 * dt)), s2, ?_, hs1.trans h2⟩
      unfold bsdDiffNext
      rw [M.bind_ok e2]
      rfl)
    (lit 1) s (PrepFrame.refl s)
  rw [M.bind_ok e]
  split
  · rw [M.bind_ok (chk_ok hj _)]
    exact ⟨_, rfl, h.trans (PrepFrame.setMp _ _)⟩
  · exact ⟨_, rfl, h⟩

theorem bsdPrepareDiff_ok (dt : K) (k kappa : ℕ) (hk : k < 9) (hkk : kappa < 2 * k + 2) (d : K) (s : BsdState K V W) :
    ∃ s', bsdPrepareDiff dt k kappa d s = .ok (d * (dt / lit (2 * (kappa + 2) : ℕ))) s' ∧ PrepFrame s s' := by
  unfold bsdPrepareDiff
  obtain ⟨s1, e1, h1⟩ := forUp_ok (body := bsdExtrapolateRow (K := K) (V := V) (W := W) kappa) (fun s' => PrepFrame s s') 1 (k - kappa / 2 + 1)
    (fun i s1 h1 h2 hs1 => by
      unfold bsdExtrapolateRow
      rw [M.bind_ok (chk_ok (by omega) _)]
      exact ⟨_, rfl, hs1.trans (PrepFrame.setDiffs _ _ _)⟩) s (PrepFrame.refl s)
  rw [M.bind_ok e1, M.bind_ok (getDiff_ok kappa 0 (by omega) s1), M.bind_ok (setDiff_ok kappa 0 _ (by omega) s1)]
  exact ⟨_, rfl, h1.trans (PrepFrame.setDiffs _ _ _)⟩

theorem bsdPrepare_ok (P : BsdParams K V) (k : ℕ) (hk : k < 9) (s : BsdState K V W) :
    ∃ e s', bsdPrepare P k s = .ok e s' ∧ PrepFrame s s' := by
  unfold bsdPrepare
  rw [M.bind_ok (m := M.get) (w' := s) (a := s) rfl]
  obtain ⟨s1, e1, h1⟩ := forUp_ok (body := bsdPrepareRow (V := V) (W := W) s.dt) (fun s' => PrepFrame s s') 0 (k + 1)
    (fun i s1 _ h2 hs1 => by
      obtain ⟨s2, e2, h2⟩ := bsdPrepareRow_ok s.dt i (by omega) s1
      exact ⟨s2, e2, hs1.trans h2⟩) s (PrepFrame.refl s)
  rw [M.bind_ok e1]
  obtain ⟨a2, s2, e2, h2⟩ := foldN_ok (body := bsdPrepareDiff (V := V) (W := W) s.dt k) (fun _ _ s' => PrepFrame s s') (2 * k + 2) 0
    (fun i a s1 _ hi hs1 => by
      obtain ⟨s2, e2, h2⟩ := bsdPrepareDiff_ok s.dt k i hk (by omega) a s1
      exact ⟨_, s2, e2, hs1.trans h2⟩) (s.dt / lit 2) s1 h1
  rw [M.bind_ok e2]
  split
  · rw [M.bind_ok (getDiff_ok (2 * k + 1) 0 (by omega) s2), M.bind_ok (m := M.get) (w' := s2) (a := s2) rfl]
    exact ⟨_, s2, rfl, h2⟩
  · exact ⟨_, s2, rfl, h2⟩

theorem bsdCalcState_ok (t : K) (k : ℕ) (hk : k < 9) (s : BsdState K V W) (hf : s.kFinal = some k) :
    ∃ x, bsdCalcState t s = .ok x s := by
  unfold bsdCalcState
  rw [M.bind_ok (m := M.get) (w' := s) (a := s) rfl]
  rw [hf]
  dsimp only
  obtain ⟨a2, s2, e2, h2⟩ := foldN_ok (body := bsdTerm (V := V) (W := W) (lit 2 * ((t - s.tLast) / (s.t - s.tLast)) - lit 1)) (fun _ _ s' => s' = s)
    (2 * k + 2) 0
    (fun i a s1 _ hi hs1 => by
      refine ⟨(lin [((lit 1 : K), a.1), (a.2, s1.diffs i 0)], a.2 * (lit 2 * ((t - s.tLast) / (s.t - s.tLast)) - lit 1)), s1, ?_, hs1⟩
      unfold bsdTerm
      rw [M.bind_ok (getDiff_ok i 0 (by omega) s1)]
      rfl) (s.mp 0, lit 2 * ((t - s.tLast) / (s.t - s.tLast)) - lit 1) s rfl
  rw [M.bind_ok e2, h2]
  exact ⟨_, rfl⟩

end
end Verif
