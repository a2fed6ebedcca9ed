import Verif.Lemmas.BulirschStoerDensePrep

/-!
# The stages and tries of `bulirsch_stoer_dense_out`
-/

namespace Verif
set_option linter.unusedSectionVars false
variable {K V W : Type} [Add K] [Sub K] [Mul K] [Div K] [Neg K] [IntCast K] [StateOps K V]

theorem bsdExtrapolateDense_high (k s : ℕ) : ∀ (n : ℕ) (T : ℕ → V) (j : ℕ), n ≤ j → bsdExtrapolateDense (K := K) k s n T j = T j := by
  intro n
  induction n with
  | zero => intro T j _; rfl
  | succ n ih =>
    intro T j hj
    rw [bsdExtrapolateDense, ih _ _ (by omega), Function.update_of_ne (by omega)]

/-- a row of Neville's tableau from the row above -/
theorem bsdExtrapolateDense_neville (k s : ℕ) (y : ℕ → V) : ∀ (n : ℕ) (T : ℕ → V), n ≤ k →
    (∀ j, j < n → T j = neville (fun a b => denseWeight (K := K) (a + s) (b + s)) y (k - 1 - j) (k - 1)) →
    (∀ j, n ≤ j → j ≤ k → T j = neville (fun a b => denseWeight (K := K) (a + s) (b + s)) y (k - j) k) →
    ∀ j, j ≤ k → bsdExtrapolateDense (K := K) k s n T j = neville (fun a b => denseWeight (K := K) (a + s) (b + s)) y (k - j) k := by
  intro n
  induction n with
  | zero => intro T _ _ h j hj; exact h j (Nat.zero_le _) hj
  | succ n ih =>
    intro T hn h1 h2 j hj
    rw [bsdExtrapolateDense]
    refine ih _ (by omega) ?_ ?_ j hj
    · intro i hi
      rw [Function.update_of_ne (by omega)]
      exact h1 i (by omega)
    · intro i hi hi'
      by_cases hin : i = n
      · subst hin
        rw [Function.update_self, h1 i (by omega), h2 (i + 1) le_rfl hn]
        obtain ⟨d, hd⟩ : ∃ d, k - i = d + 1 := ⟨k - i - 1, by omega⟩
        rw [hd, neville, show k - (i + 1) = d by omega, show k - 1 - i = d by omega, show k - (d + 1) = i by omega]
        rfl
      · rw [Function.update_of_ne hin]
        exact h2 i (by omega) hi'

/-- `m_table` with the result in front -/
def withOut (x : V) (T : ℕ → V) : ℕ → V
  | 0 => x
  | j + 1 => T j

omit [StateOps K V] in
theorem withOut_update (x : V) (T : ℕ → V) (j : ℕ) (v : V) : withOut x (Function.update T j v) = Function.update (withOut x T) (j + 1) v := by
  funext i
  cases i with
  | zero => rw [Function.update_of_ne (by omega)]; rfl
  | succ i =>
    show Function.update T j v i = _
    by_cases h : i = j
    · subst h; rw [Function.update_self, Function.update_self]
    · rw [Function.update_of_ne h, Function.update_of_ne (by omega)]; rfl

theorem bsdExtrapolateLoop_withOut (k : ℕ) (x : V) : ∀ (n : ℕ) (T : ℕ → V),
    bsdExtrapolateDense (K := K) k 0 (n + 1) (withOut x T) =
      withOut (lin [(lit 1 + bsdCoeff (K := K) k 0, bsdExtrapolateLoop (K := K) k n T 0), (-bsdCoeff (K := K) k 0, x)])
        (bsdExtrapolateLoop (K := K) k n T) := by
  intro n
  induction n with
  | zero =>
    intro T
    rw [bsdExtrapolateDense, bsdExtrapolateDense, bsdExtrapolateLoop]
    funext i
    cases i with
    | zero => rw [Function.update_self]; rfl
    | succ i => rw [Function.update_of_ne (by omega)]; rfl
  | succ n ih =>
    intro T
    rw [bsdExtrapolateDense, bsdExtrapolateLoop]
    rw [← ih, withOut_update]
    rfl

theorem bsdExtrapolate_ok (k : ℕ) (h1 : 1 ≤ k) (h2 : k < 9) (s : BsdState K V W) :
    ∃ s', bsdExtrapolate (K := K) (V := V) (W := W) k s = .ok () s' ∧
      withOut s'.old s'.table = bsdExtrapolateDense (K := K) k 0 k (withOut s.old s.table) ∧
      s' = (s.setTable s'.table).setOld s'.old := by
  obtain ⟨n, rfl⟩ : ∃ n, k = n + 1 := ⟨k - 1, by omega⟩
  unfold bsdExtrapolate
  rw [M.bind_ok (chk_ok (by omega) _)]
  refine ⟨_, rfl, ?_, rfl⟩
  rw [bsdExtrapolateLoop_withOut]
  rfl

theorem sweepsFrom_snoc (sys : Sys K V W) (x k1 : V) (t dt : K) : ∀ (n k : ℕ) (Ss Ss' : ℕ → Sweep V) (w w' : W),
    sweepsFrom sys x k1 t dt n k Ss w = .ok Ss' w' →
    (∀ S w'', sweep (2 + 4 * (k + n)) sys x k1 t dt w' = .ok S w'' →
      sweepsFrom sys x k1 t dt (n + 1) k Ss w = .ok (Function.update Ss' (k + n) S) w'') ∧
    (∀ e w'', sweep (2 + 4 * (k + n)) sys x k1 t dt w' = .err e w'' → sweepsFrom sys x k1 t dt (n + 1) k Ss w = .err e w'') := by
  intro n
  induction n with
  | zero =>
    intro k Ss Ss' w w' h
    cases h
    rw [Nat.add_zero]
    constructor
    · intro S w'' h
      rw [sweepsFrom, M.bind_ok h]
      rfl
    · intro e w'' h
      rw [sweepsFrom, M.bind_err h]
  | succ n ih =>
    intro k Ss Ss' w w' h
    rw [sweepsFrom, M.bind_apply] at h
    cases hs : sweep (2 + 4 * k) sys x k1 t dt w with
    | ok S1 w1 =>
      rw [hs] at h
      have := ih (k + 1) _ _ _ _ h
      rw [show k + 1 + n = k + (n + 1) by omega] at this
      constructor
      · intro S w'' h'
        rw [sweepsFrom, M.bind_ok hs]
        exact this.1 S w'' h'
      · intro e w'' h'
        rw [sweepsFrom, M.bind_ok hs]
        exact this.2 e w'' h'
    | err e w1 => rw [hs] at h; cases h
    | ub => rw [hs] at h; cases h
    | div => rw [hs] at h; cases h

theorem sweeps_snoc (k : ℕ) (sys : Sys K V W) (x k1 : V) (t dt : K) {Ss : ℕ → Sweep V} {w w' : W} (h : sweeps k sys x k1 t dt w = .ok Ss w') :
    (∀ S w'', sweep (2 + 4 * (k + 1)) sys x k1 t dt w' = .ok S w'' → sweeps (k + 1) sys x k1 t dt w = .ok (Function.update Ss (k + 1) S) w'') ∧
    (∀ e w'', sweep (2 + 4 * (k + 1)) sys x k1 t dt w' = .err e w'' → sweeps (k + 1) sys x k1 t dt w = .err e w'') := by
  unfold sweeps at h ⊢
  rw [M.bind_apply] at h
  cases hs : sweep 2 sys x k1 t dt w with
  | ok S1 w1 =>
    rw [hs] at h
    have := sweepsFrom_snoc sys x k1 t dt k 1 _ _ _ _ h
    rw [show 1 + k = k + 1 by omega] at this
    constructor
    · intro S w'' h'
      rw [M.bind_ok hs]
      exact this.1 S w'' h'
    · intro e w'' h'
      rw [M.bind_ok hs]
      exact this.2 e w'' h'
  | err e w1 => rw [hs] at h; cases h
  | ub => rw [hs] at h; cases h
  | div => rw [hs] at h; cases h

/-- what no part of a try changes before it has converged -/
structure TryFrame (s s' : BsdState K V W) : Prop where
  ctl : s'.ctl = s.ctl
  t : s'.t = s.t
  dt : s'.dt = s.dt
  tLast : s'.tLast = s.tLast
  cur : s'.cur = s.cur
  curD : s'.curD = s.curD

theorem TryFrame.refl (s : BsdState K V W) : TryFrame s s := ⟨rfl, rfl, rfl, rfl, rfl, rfl⟩

theorem TryFrame.trans {s s' s'' : BsdState K V W} (h : TryFrame s s') (h' : TryFrame s' s'') : TryFrame s s'' :=
  ⟨h'.ctl.trans h.ctl, h'.t.trans h.t, h'.dt.trans h.dt, h'.tLast.trans h.tLast, h'.cur.trans h.cur, h'.curD.trans h.curD⟩

theorem SweepFrame.tryFrame {s s' : BsdState K V W} (h : SweepFrame s s') : TryFrame s s' := ⟨h.ctl, h.t, h.dt, h.tLast, h.cur, h.curD⟩

/-- `y_j`, Gragg's smoothed values -/
def graggEnds (dt : K) (Ss : ℕ → Sweep V) (j : ℕ) : V := (Ss j).result (2 + 4 * j) (dt / lit (2 + 4 * j : ℕ))

/-- the members after the stages `0 .. k` -/
structure Staged (sys : Sys K V W) (s0 : BsdState K V W) (k : ℕ) (Ss : ℕ → Sweep V) (s : BsdState K V W) : Prop where
  frame : TryFrame s0 s
  run : sweeps k sys s0.cur s0.curD s0.t s0.dt s0.world = .ok Ss s.world
  table : ∀ j, j ≤ k → withOut s.old s.table j = neville (denseWeight (K := K)) (graggEnds s0.dt Ss) (k - j) k
  mp : ∀ j, j ≤ k → s.mp j = (Ss j).p (2 * j + 1)
  derivs : ∀ j, j ≤ k → ∀ i, i < 2 + 4 * j → s.derivs j i = (Ss j).q (i + 1)
  kFinal : s.kFinal = some k

/-- an exception of the system function during the stages -/
structure StageThrown (sys : Sys K V W) (s0 : BsdState K V W) (e : Err) (s : BsdState K V W) : Prop where
  frame : TryFrame s0 s
  run : ∃ k, sweeps k sys s0.cur s0.curD s0.t s0.dt s0.world = .err e s.world
  kFinal : ∃ k, k ≤ 8 ∧ s.kFinal = some k

theorem graggEnds_update (dt : K) (Ss : ℕ → Sweep V) (k : ℕ) (S : Sweep V) (j : ℕ) (h : j ≠ k) :
    graggEnds dt (Function.update Ss k S) j = graggEnds dt Ss j := by
  unfold graggEnds
  rw [Function.update_of_ne h]

omit [Add K] [Sub K] [Mul K] [Div K] [Neg K] in
theorem neville_congr' [Add K] [Neg K] (c : ℕ → ℕ → K) (y y' : ℕ → V) : ∀ (d k : ℕ), (∀ j, j ≤ k → y j = y' j) → neville c y d k = neville c y' d k := by
  intro d
  induction d with
  | zero => intro k h; exact h k le_rfl
  | succ d ih =>
    intro k h
    rw [neville, neville, ih k h, ih (k - 1) (fun j hj => h j (by omega))]

theorem bsdStage0_sat {sys : Sys K V W} (hs : sys.Defined) (s0 : BsdState K V W) (hk : s0.kFinal = some 0) :
    (bsdStage0 sys s0).Sat (fun _ s => ∃ Ss, Staged sys s0 0 Ss s) (fun e s => StageThrown sys s0 e s) True := by
  unfold bsdStage0
  rw [M.bind_ok (m := M.get) (w' := s0) (a := s0) rfl]
  refine Res.Sat.bind ?_
  refine (bsdMidpoint_sat hs s0.cur s0.curD s0.t s0.dt 0 (by omega) s0).mono ?_ ?_ (fun h => h)
  · rintro y s1 ⟨S, a1, a2, a3⟩
    have hrun : sweeps 0 sys s0.cur s0.curD s0.t s0.dt s0.world = .ok (fun _ => S) s1.world := by
      unfold sweeps
      rw [show (2 : ℕ) = 2 + 4 * 0 by rfl, M.bind_ok a1]
      rfl
    have hF := a3.frame.tryFrame
    refine ⟨fun _ => S, ⟨hF.ctl, hF.t, hF.dt, hF.tLast, hF.cur, hF.curD⟩, hrun, ?_, ?_, ?_, a3.frame.kFinal.trans hk⟩
    · intro j hj
      obtain rfl : j = 0 := by omega
      exact a2
    · intro j hj
      obtain rfl : j = 0 := by omega
      exact a3.mp
    · intro j hj i hi
      obtain rfl : j = 0 := by omega
      exact a3.derivs i hi
  · rintro e s1 ⟨a1, a2⟩
    refine ⟨a2.tryFrame, ⟨0, ?_⟩, 0, by omega, a2.kFinal.trans hk⟩
    unfold sweeps
    rw [show (2 : ℕ) = 2 + 4 * 0 by rfl, M.bind_err a1]

theorem bsdStage_sat (P : BsdParams K V) {sys : Sys K V W} (hs : sys.Defined) (s0 : BsdState K V W) (k : ℕ) (hk : k + 1 < 9) (Ss : ℕ → Sweep V)
    (s : BsdState K V W) (h : Staged sys s0 k Ss s) :
    (bsdStage P sys (k + 1) s).Sat
      (fun e s' => ∃ Ss', Staged sys s0 (k + 1) Ss' s' ∧ s'.old = (denseStep (k + 1) s0.dt Ss').1 ∧
        e = (P.checker.error s0.cur s0.curD (denseStep (k + 1) s0.dt Ss').2 s0.dt).2)
      (fun e s' => StageThrown sys s0 e s') True := by
  unfold bsdStage
  rw [M.bind_ok (m := M.get) (w' := s) (a := s) rfl]
  refine Res.Sat.bind ?_
  rw [h.frame.cur, h.frame.curD, h.frame.t, h.frame.dt]
  refine (bsdMidpoint_sat hs s0.cur s0.curD s0.t s0.dt (k + 1) hk s).mono ?_ ?_ (fun h => h)
  · rintro y s1 ⟨S, a1, a2, a3⟩
    rw [M.bind_ok (chk_ok (by omega) _), M.bind_ok (m := M.modify _) (a := ()) (w' := s1.setTable (Function.update s1.table (k + 1 - 1) y)) rfl]
    obtain ⟨s2, e2, t2, f2⟩ := bsdExtrapolate_ok (K := K) (k + 1) (by omega) hk (s1.setTable (Function.update s1.table (k + 1 - 1) y))
    rw [M.bind_ok e2, M.bind_ok (m := M.modify _) (a := ()) (w' := s2.setKFinal (k + 1)) rfl,
      M.bind_ok (m := M.get) (w' := s2.setKFinal (k + 1)) (a := s2.setKFinal (k + 1)) rfl]
    have hf : TryFrame s0 (s2.setKFinal (k + 1)) := by
      refine h.frame.trans (a3.frame.tryFrame.trans ?_)
      rw [f2]
      exact ⟨rfl, rfl, rfl, rfl, rfl, rfl⟩
    have hw : s2.world = s1.world := by rw [f2]; rfl
    have hmp : s2.mp = s1.mp := by rw [f2]; rfl
    have hde : s2.derivs = s1.derivs := by rw [f2]; rfl
    have htab : ∀ j, j ≤ k + 1 → withOut s2.old s2.table j =
        neville (denseWeight (K := K)) (graggEnds s0.dt (Function.update Ss (k + 1) S)) (k + 1 - j) (k + 1) := by
      have := bsdExtrapolateDense_neville (K := K) (k + 1) 0 (graggEnds s0.dt (Function.update Ss (k + 1) S)) (k + 1)
        (withOut s1.old (Function.update s1.table (k + 1 - 1) y)) le_rfl ?_ ?_
      · intro j hj
        rw [t2]
        exact this j hj
      · intro j hj
        rw [show k + 1 - 1 = k by omega, withOut_update, Function.update_of_ne (by omega), a3.frame.old, a3.frame.table, h.table j (by omega)]
        exact neville_congr' _ _ _ _ _ (fun i hi => (graggEnds_update _ _ _ _ _ (by omega)).symm)
      · intro j h1 h2
        obtain rfl : j = k + 1 := by omega
        rw [show k + 1 - 1 = k by omega, withOut_update, Function.update_self, show k + 1 - (k + 1) = 0 by omega, neville, a2]
        unfold graggEnds
        rw [Function.update_self]
    have hst : Staged sys s0 (k + 1) (Function.update Ss (k + 1) S) (s2.setKFinal (k + 1)) := by
      refine ⟨hf, ?_, htab, ?_, ?_, rfl⟩
      · show sweeps (k + 1) sys s0.cur s0.curD s0.t s0.dt s0.world = .ok _ s2.world
        rw [hw]
        exact (sweeps_snoc k sys _ _ _ _ h.run).1 S _ a1
      · intro j hj
        show s2.mp j = _
        rw [hmp]
        by_cases hjk : j = k + 1
        · subst hjk
          rw [Function.update_self, a3.mp]
          congr 1
          unfold bsdSteps
          omega
        · rw [Function.update_of_ne hjk, a3.mp_ne j hjk]
          exact h.mp j (by omega)
      · intro j hj i hi
        show s2.derivs j i = _
        rw [hde]
        by_cases hjk : j = k + 1
        · subst hjk
          rw [Function.update_self]
          exact a3.derivs i hi
        · rw [Function.update_of_ne hjk, a3.derivs_ne j hjk]
          exact h.derivs j (by omega) i hi
    refine ⟨_, hst, ?_, ?_⟩
    · exact htab 0 (by omega)
    · have h0 := htab 0 (by omega)
      have h1 := htab 1 (by omega)
      show (P.checker.error s2.cur s2.curD (lin [((lit 1 : K), s2.old), (-lit 1, s2.table 0)]) s2.dt).2 = _
      rw [show s2.cur = s0.cur from hf.cur, show s2.curD = s0.curD from hf.curD, show s2.dt = s0.dt from hf.dt]
      rw [show s2.old = _ from h0, show s2.table 0 = _ from h1]
      rfl
  · rintro e s1 ⟨a1, a2⟩
    exact ⟨h.frame.trans a2.tryFrame, ⟨k + 1, (sweeps_snoc k sys _ _ _ _ h.run).2 _ _ a1⟩, k, by omega, a2.kFinal.trans h.kFinal⟩

end Verif
