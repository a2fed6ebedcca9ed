import Verif.Lemmas.BulirschStoerDenseStep

/-!
# `try_step` and `do_step` of `bulirsch_stoer_dense_out`
-/

namespace Verif
set_option linter.unusedSectionVars false
variable {K V W : Type} [Add K] [Sub K] [Mul K] [Div K] [Neg K] [IntCast K] [StateOps K V]

/-- `mp` and `diffs` are what `prepare_dense_output` makes of the sweeps `0 .. k` -/
def Prepared (P : BsdParams K V) (W : Type) (k : ℕ) (Ss : ℕ → Sweep V) (d : V) (dt : K) (mp : ℕ → V) (diffs : ℕ → ℕ → V) : Prop :=
  ∃ (s s' : BsdState K V W) (e : K), (∀ j, j ≤ k → s.mp j = (Ss j).p (2 * j + 1)) ∧
    (∀ j, j ≤ k → ∀ i, i < 2 + 4 * j → s.derivs j i = (Ss j).q (i + 1)) ∧ s.curD = d ∧ s.dt = dt ∧ bsdPrepare P k s = .ok e s' ∧
    mp = s'.mp ∧ diffs = s'.diffs

/-- a reason for the step size after a try -/
def TryBreak (P : BsdParams K V) (s0 : BsdState K V W) (PE : K → Prop) (r : Bool) (b : BsBreak K) : Prop :=
  b.reject = !r ∧
  ((∃ k e, PE e ∧ LoopEnd bsdRules P.ops s0.ctl s0.dt PE k e b) ∨
   (r = false ∧ ∃ k e, k ≤ 8 ∧ PE e ∧ (e = lit 0 ∨ P.control = true) ∧ P.ops.lt (lit 10) e = true ∧ b.newH = s0.dt * P.ops.pow e (lit (-1) / lit (2 * k + 2 : ℕ))))

/-- the members after a try that computed something -/
structure TryEnd (P : BsdParams K V) (sys : Sys K V W) (PE : K → Prop) (s0 : BsdState K V W) (r : Bool) (s : BsdState K V W) : Prop where
  cur : s.cur = s0.cur
  curD : s.curD = s0.curD
  tLast : s.tLast = s0.tLast
  first : s.ctl.first = s0.ctl.first
  lastRej : s.ctl.lastRej = !r
  lo : 2 ≤ s.ctl.kopt
  hi : s.ctl.kopt ≤ 7
  acc : r = true → s.t = s0.t + s0.dt ∧ ∃ k Ss w, s.kFinal = some k ∧ BsdAccepted P sys s0.cur s0.curD s0.t s0.dt s0.world k Ss s.old w ∧
    sys s.old (s0.t + s0.dt) w = .ok s.oldD s.world ∧ Prepared P W k Ss s0.curD s0.dt s.mp s.diffs
  rej : r = false → s.t = s0.t ∧ ∃ k, k ≤ 8 ∧ s.kFinal = some k
  dt : ∃ b, TryBreak P s0 PE r b ∧ s.dt = if bsdUpdates P s0.ctl b.newH s0.dt then bsNewDt P.toBsParams b else s0.dt

/-- the members after an exception of the system function during a try -/
structure TryThrown (s0 : BsdState K V W) (s : BsdState K V W) : Prop where
  cur : s.cur = s0.cur
  curD : s.curD = s0.curD
  tLast : s.tLast = s0.tLast
  t : s.t = s0.t
  dt : s.dt = s0.dt
  first : s.ctl.first = s0.ctl.first
  lastRej : s.ctl.lastRej = s0.ctl.lastRej
  lo : 2 ≤ s.ctl.kopt
  hi : s.ctl.kopt ≤ 7
  kFinal : ∃ k, k ≤ 8 ∧ s.kFinal = some k

theorem bsdConverged_sat (P : BsdParams K V) {sys : Sys K V W} (hs : sys.Defined) (k : ℕ) (hk : k ≤ 8) (b : BsBreak K) (hb : b.reject = false)
    (s : BsdState K V W) (hf : s.kFinal = some k) :
    (bsdConverged P sys b s).Sat
      (fun b' s' => ∃ s1 e s2, sys s.old (s.t + s.dt) s.world = .ok s1.oldD s1.world ∧ s1 = (s.setWorld s1.world).setOldD s1.oldD ∧
        bsdPrepare P k s1 = .ok e s2 ∧ PrepFrame s1 s2 ∧
        ((b' = b ∧ s' = s2.setT (s2.t + s2.dt)) ∨
          (b'.reject = true ∧ b'.kopt = b.kopt ∧ P.ops.lt (lit 10) e = true ∧
            b'.newH = s.dt * P.ops.pow e (lit (-1) / lit (2 * k + 2 : ℕ)) ∧ s' = s2)))
      (fun e s' => sys s.old (s.t + s.dt) s.world = .err e s'.world ∧ s' = s.setWorld s'.world) True := by
  unfold bsdConverged
  rw [M.bind_ok (m := M.get) (w' := s) (a := s) rfl]
  refine Res.Sat.bind ((bsdCall_sat hs _ _ s).mono ?_ (fun _ _ h => h) (fun _ => trivial))
  rintro d s1 ⟨c1, c2⟩
  rw [M.bind_ok (m := M.modify _) (a := ()) (w' := s1.setOldD d) rfl, M.bind_ok (m := M.get) (w' := s1.setOldD d) (a := s1.setOldD d) rfl]
  rw [show (s1.setOldD d).kFinal = some k by rw [c2]; exact hf]
  dsimp only
  obtain ⟨e, s2, e2, h2⟩ := bsdPrepare_ok P k (by omega) (s1.setOldD d)
  rw [M.bind_ok e2]
  have hs1 : s1.setOldD d = (s.setWorld s1.world).setOldD d := by conv_lhs => rw [c2]
  have hdt : (s1.setOldD d).dt = s.dt := by rw [hs1]; rfl
  split
  · rename_i hlt
    refine ⟨s1.setOldD d, e, s2, c1, hs1, e2, h2, Or.inr ⟨rfl, rfl, hlt, ?_, rfl⟩⟩
    rw [hdt]
    rfl
  · rw [M.bind_ok (m := M.modify _) (a := ()) (w' := s2.setT (s2.t + s2.dt)) rfl]
    exact ⟨s1.setOldD d, e, s2, c1, hs1, e2, h2, Or.inl ⟨rfl, rfl⟩⟩

/-- a prepared stepper gives an error of the checker -/
theorem bsdPrepare_error (P : BsdParams K V) (k : ℕ) (hk : k < 9) (s s' : BsdState K V W) (e : K) (h : bsdPrepare P k s = .ok e s') :
    e = lit 0 ∨ (P.control = true ∧ ∃ v, e = (P.checker.error s.cur s.curD v s.dt).2) := by
  unfold bsdPrepare at h
  rw [M.bind_ok (m := M.get) (w' := s) (a := s) rfl] at h
  obtain ⟨s1, e1, h1⟩ := forUp_ok (body := bsdPrepareRow (V := V) (W := W) s.dt) (fun s' => PrepFrame s s') 0 (k + 1)
    (fun i s1 _ h2 hs1 => by
      obtain ⟨s2, e2, h2⟩ := bsdPrepareRow_ok s.dt i (by omega) s1
      exact ⟨s2, e2, hs1.trans h2⟩) s (PrepFrame.refl s)
  rw [M.bind_ok e1] at h
  obtain ⟨a2, s2, e2, h2⟩ := foldN_ok (body := bsdPrepareDiff (V := V) (W := W) s.dt k) (fun _ _ s' => PrepFrame s s') (2 * k + 2) 0
    (fun i a s1 _ hi hs1 => by
      obtain ⟨s2, e2, h2⟩ := bsdPrepareDiff_ok s.dt k i hk (by omega) a s1
      exact ⟨_, s2, e2, hs1.trans h2⟩) (s.dt / lit 2) s1 h1
  rw [M.bind_ok e2] at h
  split at h
  · rename_i hctl
    rw [M.bind_ok (getDiff_ok (2 * k + 1) 0 (by omega) s2), M.bind_ok (m := M.get) (w' := s2) (a := s2) rfl] at h
    cases h
    right
    rw [h2.cur, h2.curD, h2.dt]
    exact ⟨hctl, _, rfl⟩
  · cases h
    exact Or.inl rfl

theorem bsdTryBody_sat (P : BsdParams K V) {sys : Sys K V W} (hs : sys.Defined) (s0 : BsdState K V W) (PE : K → Prop)
    (h0 : PE (lit 0)) (hPE : ∀ v, PE (P.checker.error s0.cur s0.curD v s0.dt).2)
    (h1 : 2 ≤ s0.ctl.kopt) (h2 : s0.ctl.kopt ≤ 7) (hf : s0.ctl.first = true → s0.ctl.kopt ≤ 6) :
    (bsdTryBody P sys s0).Sat (fun r s => TryEnd P sys PE s0 r s) (fun _ s => TryThrown s0 s) True := by
  unfold bsdTryBody
  rw [M.bind_ok (m := M.modify _) (a := ()) (w' := s0.setKFinal 0) rfl, M.bind_ok (m := M.get) (w' := s0.setKFinal 0) (a := s0.setKFinal 0) rfl]
  refine Res.Sat.bind ?_
  have hloop : (bsLoop bsdRules P.ops s0.ctl s0.dt (bsdStage0 sys) (bsdStage P sys) (s0.ctl.kopt + 2) 0 (fun _ => lit 0) (fun _ => lit 0)
      (s0.setKFinal 0)).Sat
      (fun r s' => ∃ b k e, r = some b ∧ (∃ Ss, Staged sys (s0.setKFinal 0) k Ss s' ∧ s'.old = (denseStep k s0.dt Ss).1 ∧
          e = (P.checker.error s0.cur s0.curD (denseStep k s0.dt Ss).2 s0.dt).2) ∧ PE e ∧ LoopEnd bsdRules P.ops s0.ctl s0.dt PE k e b)
      (fun e s' => StageThrown sys (s0.setKFinal 0) e s') True := by
    rw [bsLoop, if_pos rfl]
    refine Res.Sat.bind ((bsdStage0_sat hs (s0.setKFinal 0) rfl).mono ?_ (fun _ _ h => h) (fun h => h))
    rintro - s1 ⟨Ss, hSs⟩
    refine (bsLoop_sat bsdRules P.ops s0.ctl s0.dt (fun kopt => le_rfl) h1 h2 hf PE (fun k s => ∃ Ss, Staged sys (s0.setKFinal 0) (k - 1) Ss s)
      (fun k e s => ∃ Ss, Staged sys (s0.setKFinal 0) k Ss s ∧ s.old = (denseStep k s0.dt Ss).1 ∧
          e = (P.checker.error s0.cur s0.curD (denseStep k s0.dt Ss).2 s0.dt).2) (fun e s => StageThrown sys (s0.setKFinal 0) e s) ?_
      (s0.ctl.kopt + 1) 1 _ _ s1 le_rfl (by omega) (by omega) ⟨Ss, hSs⟩ (fun j h1 h2 => by omega)).mono ?_ (fun _ _ h => h) (fun h => h)
    · rintro k s hk1 hk2 ⟨Ss, hSs⟩
      obtain ⟨n, rfl⟩ : ∃ n, k = n + 1 := ⟨k - 1, by omega⟩
      refine (bsdStage_sat P hs (s0.setKFinal 0) n (by omega) Ss s hSs).mono ?_ (fun _ _ h => h) (fun h => h)
      rintro e s' ⟨Ss', a1, a2, a3⟩
      exact ⟨⟨Ss', a1⟩, ⟨Ss', a1, a2, a3⟩, by rw [a3]; exact hPE _⟩
    · rintro r s' ⟨b, k, e, hr, -, hA, hp, hL⟩
      exact ⟨b, k, e, hr, hA, hp, hL⟩
  refine Res.Sat.mono hloop ?_ ?_ (fun h => h)
  · rintro r s1 ⟨b, k, e, rfl, ⟨Ss, hS, hold, he⟩, hp, hL⟩
    have hk8 : k ≤ 8 := by have := hL.k2; omega
    rw [Option.getD_some, M.bind_ok (m := M.modify _) (a := ()) (w' := s1.setCtl { s1.ctl with kopt := b.kopt }) rfl]
    refine Res.Sat.bind ?_
    by_cases hrej : b.reject = true
    · rw [if_pos hrej]
      show TryEnd P sys PE s0 (!b.reject) (bsdFinish P b (s1.setCtl { s1.ctl with kopt := b.kopt }))
      rw [hrej]
      have hF := hS.frame
      have hupd : bsdUpdates P (s1.setCtl { s1.ctl with kopt := b.kopt }).ctl b.newH (s1.setCtl { s1.ctl with kopt := b.kopt }).dt =
          bsdUpdates P s0.ctl b.newH s0.dt := by
        show (!s1.ctl.lastRej || P.ops.lt b.newH s1.dt) = _
        rw [hF.ctl, hF.dt]
        rfl
      have hb : TryBreak P s0 PE (!true) b := ⟨by rw [hrej]; rfl, Or.inl ⟨k, e, hp, hL⟩⟩
      unfold bsdFinish
      rw [hupd]
      cases hu : bsdUpdates P s0.ctl b.newH s0.dt
      · rw [if_neg (by simp)]
        refine ⟨hF.cur, hF.curD, hF.tLast, ?_, hrej, hL.lo, hL.hi, fun h => (nomatch h), fun _ => ⟨hF.t, k, hk8, hS.kFinal⟩, b, hb, ?_⟩
        · show s1.ctl.first = _
          rw [hF.ctl]; rfl
        · rw [hu, if_neg (by simp)]
          exact hF.dt
      · rw [if_pos rfl]
        refine ⟨hF.cur, hF.curD, hF.tLast, ?_, hrej, hL.lo, hL.hi, fun h => (nomatch h), fun _ => ⟨hF.t, k, hk8, hS.kFinal⟩, b, hb, ?_⟩
        · show s1.ctl.first = _
          rw [hF.ctl]; rfl
        · rw [hu, if_pos rfl]
          rfl
    · have hrej' : b.reject = false := Bool.eq_false_iff.mpr hrej
      rw [if_neg hrej]
      have hF := hS.frame
      refine (bsdConverged_sat P hs k hk8 b hrej' (s1.setCtl { s1.ctl with kopt := b.kopt }) hS.kFinal).mono ?_ ?_ (fun h => h)
      · rintro b' s' ⟨s2, e2, s3, c1, c2, c3, c4, c5⟩
        show TryEnd P sys PE s0 (!b'.reject) (bsdFinish P b' s')
        have p1 : s2.ctl = { s1.ctl with kopt := b.kopt } := by rw [c2]; rfl
        have p2 : s2.dt = s0.dt := by rw [c2]; exact hF.dt
        have p3 : s2.t = s0.t := by rw [c2]; exact hF.t
        have p4 : s2.cur = s0.cur := by rw [c2]; exact hF.cur
        have p5 : s2.curD = s0.curD := by rw [c2]; exact hF.curD
        have p6 : s2.tLast = s0.tLast := by rw [c2]; exact hF.tLast
        have p7 : s2.kFinal = some k := by rw [c2]; exact hS.kFinal
        have p8 : s2.old = s1.old := by rw [c2]; rfl
        have p9 : s2.mp = s1.mp := by rw [c2]; rfl
        have p10 : s2.derivs = s1.derivs := by rw [c2]; rfl
        have hq : s3.ctl = { s0.ctl with kopt := b.kopt } := by
          rw [c4.ctl, p1, hF.ctl]
          rfl
        have hPE2 : PE e2 ∧ (e2 = lit 0 ∨ P.control = true) := by
          rcases bsdPrepare_error P k (by omega) s2 s3 e2 c3 with h | ⟨hc, v, h⟩
          · rw [h]; exact ⟨h0, Or.inl rfl⟩
          · rw [h, p4, p5, p2]; exact ⟨hPE v, Or.inr hc⟩
        have hs' : s'.ctl = s3.ctl ∧ s'.dt = s3.dt ∧ s'.cur = s3.cur ∧ s'.curD = s3.curD ∧ s'.tLast = s3.tLast ∧ s'.kFinal = s3.kFinal ∧
            s'.old = s3.old ∧ s'.oldD = s3.oldD ∧ s'.mp = s3.mp ∧ s'.diffs = s3.diffs ∧ s'.world = s3.world := by
          rcases c5 with ⟨-, rfl⟩ | ⟨-, -, -, -, rfl⟩ <;> exact ⟨rfl, rfl, rfl, rfl, rfl, rfl, rfl, rfl, rfl, rfl, rfl⟩
        obtain ⟨q1, q2, q3, q4, q5, q6, q7, q8, q9, q10, q11⟩ := hs'
        have hupd : bsdUpdates P s'.ctl b'.newH s'.dt = bsdUpdates P s0.ctl b'.newH s0.dt := by
          rw [q1, q2, hq, c4.dt, p2]
          rfl
        have hkopt : b'.kopt = b.kopt := by
          rcases c5 with ⟨rfl, -⟩ | ⟨-, h, -⟩
          · rfl
          · exact h
        have hb : TryBreak P s0 PE (!b'.reject) b' := by
          refine ⟨by rw [Bool.not_not], ?_⟩
          rcases c5 with ⟨rfl, -⟩ | ⟨r1, -, r3, r4, -⟩
          · exact Or.inl ⟨k, e, hp, hL⟩
          · refine Or.inr ⟨by rw [r1]; rfl, k, e2, hk8, hPE2.1, hPE2.2, r3, ?_⟩
            rw [r4]
            show s1.dt * _ = _
            rw [hF.dt]
            rfl
        have hfin : ∃ dt', bsdFinish P b' s' = ((s'.setDt dt').setCtl { s'.ctl with lastRej := b'.reject }) ∧
            dt' = if bsdUpdates P s0.ctl b'.newH s0.dt then bsNewDt P.toBsParams b' else s0.dt := by
          unfold bsdFinish
          rw [hupd]
          cases hu : bsdUpdates P s0.ctl b'.newH s0.dt
          · exact ⟨s'.dt, rfl, by rw [if_neg (by simp), q2, c4.dt, p2]⟩
          · exact ⟨_, rfl, rfl⟩
        obtain ⟨dt', f1, f2⟩ := hfin
        rw [f1]
        refine ⟨q3.trans (c4.cur.trans p4), q4.trans (c4.curD.trans p5), q5.trans (c4.tLast.trans p6), ?_, (Bool.not_not _).symm, ?_, ?_, ?_, ?_, b', hb, f2⟩
        · show s'.ctl.first = _
          rw [q1, hq]
        · show 2 ≤ s'.ctl.kopt
          rw [q1, hq]
          exact hL.lo
        · show s'.ctl.kopt ≤ 7
          rw [q1, hq]
          exact hL.hi
        · intro hr
          rcases c5 with ⟨rfl, c6⟩ | ⟨r1, -⟩
          · refine ⟨?_, k, Ss, s1.world, q6.trans (c4.kFinal.trans p7), ⟨hL.k1, hk8, hS.run, ?_, ?_⟩, ?_, ?_⟩
            · show s'.t = _
              rw [c6]
              show s3.t + s3.dt = _
              rw [c4.t, c4.dt, p2, p3]
            · show s'.old = _
              rw [q7, c4.old, p8, hold]
            · rw [← he]
              exact (hL.acc hrej').1
            · show sys s'.old _ _ = .ok s'.oldD s'.world
              rw [q7, q8, q11, c4.old, c4.oldD, c4.world, p8]
              rw [← c1]
              show _ = sys s1.old (s1.t + s1.dt) s1.world
              rw [hF.t, hF.dt]
              rfl
            · refine ⟨s2, s3, e2, ?_, ?_, p5, p2, c3, q9, q10⟩
              · intro j hj
                rw [p9]
                exact hS.mp j hj
              · intro j hj i hi
                rw [p10]
                exact hS.derivs j hj i hi
          · rw [r1] at hr
            cases hr
        · intro hr
          rcases c5 with ⟨rfl, -⟩ | ⟨r1, -, -, -, c6⟩
          · rw [hrej'] at hr
            cases hr
          · refine ⟨?_, k, hk8, q6.trans (c4.kFinal.trans p7)⟩
            show s'.t = _
            rw [c6, c4.t, p3]
      · rintro e' s' ⟨c1, c2⟩
        rw [c2]
        exact ⟨hF.cur, hF.curD, hF.tLast, hF.t, hF.dt, by show s1.ctl.first = _; rw [hF.ctl]; rfl, by show s1.ctl.lastRej = _; rw [hF.ctl]; rfl, hL.lo, hL.hi,
          k, hk8, hS.kFinal⟩
  · rintro e s1 h
    have hF := h.frame
    exact ⟨hF.cur, hF.curD, hF.tLast, hF.t, hF.dt, by rw [hF.ctl]; rfl, by rw [hF.ctl]; rfl, by rw [hF.ctl]; exact h1, by rw [hF.ctl]; exact h2, h.kFinal⟩

end Verif
