import Verif.Lemmas.BsTryMem
import Verif.Lemmas.IntervalControlled

/-! # Time and step size after a try of `bulirsch_stoer`, for all system functions -/

namespace Verif

section
variable {K S : Type} [Add K] [Sub K] [Mul K] [Div K] [Neg K] [IntCast K]

/-- the loop over the stages depends on a stage only through its result -/
theorem bsLoop_ok_mono (R : BsRules K) (O : NumOps K) (c : BsCtl K) (dt : K) {a a' : M S Unit} {b b' : ℕ → M S K}
    (ha : ∀ s r s', a s = .ok r s' → a' s = .ok r s') (hb : ∀ k s r s', b k s = .ok r s' → b' k s = .ok r s') :
    ∀ (n k : ℕ) (hopt work : ℕ → K) (s : S) (r : Option (BsBreak K)) (s' : S), bsLoop R O c dt a b n k hopt work s = .ok r s' →
      bsLoop R O c dt a' b' n k hopt work s = .ok r s' := by
  intro n
  induction n with
  | zero => intro k hopt work s r s' h; exact h
  | succ n ih =>
    intro k hopt work s r s' h
    rw [bsLoop] at h ⊢
    split at h
    · obtain ⟨u, s1, h1, h2⟩ := bind_ok_inv h
      rw [if_pos ‹_›, M.bind_ok (ha _ _ _ h1)]
      exact ih _ _ _ _ _ _ h2
    · obtain ⟨u, s1, h1, h2⟩ := bind_ok_inv h
      obtain ⟨e, s2, h3, h4⟩ := bind_ok_inv h2
      rw [if_neg ‹_›, M.bind_ok h1, M.bind_ok (hb _ _ _ _ h3)]
      unfold orNext at h4 ⊢
      obtain ⟨o, s3, h5, h6⟩ := bind_ok_inv h4
      rw [M.bind_ok h5]
      cases o with
      | some o => exact h6
      | none => exact ih _ _ _ _ _ _ h6

/-- undefined behaviour replaced by an exception -/
def M.noUb {α : Type} (m : M S α) : M S α := fun s =>
  match m s with
  | .ub => .err (.user 0) s
  | r => r

theorem M.noUb_sat {α : Type} (m : M S α) (s : S) : (m.noUb s).Sat (fun _ _ => True) (fun _ _ => True) True := by
  unfold M.noUb
  cases m s <;> trivial

theorem M.noUb_ok {α : Type} {m : M S α} {s s' : S} {r : α} (h : m s = .ok r s') : m.noUb s = .ok r s' := by
  unfold M.noUb
  rw [h]

theorem bsLoop_ok (O : NumOps K) (c : BsCtl K) (dt : K) (hc : c.Valid) {stage0 : M S Unit} {stage : ℕ → M S K} {hopt work : ℕ → K} {s s' : S}
    {r : Option (BsBreak K)} (h : bsLoop bsRules O c dt stage0 stage (c.kopt + 2) 0 hopt work s = .ok r s') :
    ∃ b k e, r = some b ∧ LoopEnd bsRules O c dt (fun _ => True) k e b := by
  have h' := bsLoop_ok_mono bsRules O c dt (a' := stage0.noUb) (b' := fun k => (stage k).noUb) (fun _ _ _ h => M.noUb_ok h) (fun _ _ _ _ h => M.noUb_ok h)
    _ _ _ _ _ _ _ h
  rw [show c.kopt + 2 = (c.kopt + 1) + 1 by omega, bsLoop, if_pos rfl] at h'
  obtain ⟨u, s1, -, h2⟩ := bind_ok_inv h'
  have key := bsLoop_sat bsRules O c dt (fun _ => Nat.le_succ _) hc.1 hc.2.1 (fun h => by have := hc.2.2 h; omega) (D := True) (stage0 := stage0.noUb)
    (stage := fun k => (stage k).noUb) (fun _ => True) (fun _ _ => True) (fun _ _ _ => True) (fun _ _ => True)
    (fun k s _ _ _ => (M.noUb_sat (stage k) s).mono (fun _ _ _ => ⟨trivial, trivial, trivial⟩) (fun _ _ h => h) id)
    (c.kopt + 1) 1 hopt work s1 le_rfl (by omega) (by omega) trivial (fun j h1 h2 => by omega)
  rw [h2] at key
  obtain ⟨b, k, e, e1, -, -, -, hL⟩ := key
  exact ⟨b, k, e, e1, hL⟩

end

section
variable {K V W : Type} [Add K] [Sub K] [Mul K] [Div K] [Neg K] [IntCast K] [StateOps K V]

theorem onHeap_ctl {α : Type} {m : StepM K V W α} {s s' : BsState K V W} {a : α} (h : onHeap m s = .ok a s') : s'.ctl = s.ctl := by
  unfold onHeap at h
  cases hm : m s.heap with
  | ok a h' => rw [hm] at h; cases h; rfl
  | err _ _ => rw [hm] at h; cases h
  | ub => rw [hm] at h; cases h
  | div => rw [hm] at h; cases h

/-- A try that returns. -/
theorem bsTry4_ok (P : BsParams K V) (resized : Bool) (sys : Sys K V W) (inp dxdt : Loc) (t : K) (out : Loc) (dt : K) {s s' : BsState K V W}
    (hv : s.ctl.Valid) {r : TryOut K} (h : bsTry4 P resized sys inp dxdt t out dt s = .ok r s') :
    s'.ctl.Valid ∧ ((bsTooLong P dt = true ∧ r = ⟨false, t, P.maxDt⟩) ∨
      (bsTooLong P dt = false ∧ ∃ c b k e, r = bsResult P c b t dt ∧ LoopEnd bsRules P.ops c dt (fun _ => True) k e b)) := by
  have hc := bsPrepare_valid P resized dt s.ctl hv
  unfold bsTry4 at h
  split at h
  · rename_i hl
    cases h
    exact ⟨hv, .inl ⟨hl, rfl⟩⟩
  · rename_i hl
    rw [M.bind_ok (m := M.get) (w' := s) (a := s) rfl] at h
    unfold bsTryBody at h
    rw [M.bind_ok (m := setCtl (bsPrepare P resized dt s.ctl)) (w' := ⟨bsPrepare P resized dt s.ctl, s.heap⟩) (a := ()) rfl] at h
    obtain ⟨o, s1, h1, h2⟩ := bind_ok_inv h
    obtain ⟨b, k, e, rfl, hL⟩ := bsLoop_ok _ _ _ hc h1
    cases h2
    exact ⟨bsNewCtl_valid P _ b dt hL.lo hL.hi, .inr ⟨by simpa using hl, _, b, k, e, rfl, hL⟩⟩

theorem bsTry1_ok (P : BsParams K V) (resized : Bool) (sys : Sys K V W) (x : Loc) (t dt : K) {s s' : BsState K V W}
    (hv : s.ctl.Valid) {r : TryOut K} (h : bsTry1 P resized sys x t dt s = .ok r s') :
    s'.ctl.Valid ∧ ((bsTooLong P dt = true ∧ r = ⟨false, t, P.maxDt⟩) ∨
      (bsTooLong P dt = false ∧ ∃ c b k e, r = bsResult P c b t dt ∧ LoopEnd bsRules P.ops c dt (fun _ => True) k e b)) := by
  unfold bsTry1 at h
  obtain ⟨_, s1, h1, h⟩ := bind_ok_inv h
  unfold bsTry2 at h
  obtain ⟨r1, s2, h2, h⟩ := bind_ok_inv h
  obtain ⟨_, s3, h3, h⟩ := bind_ok_inv h
  cases h
  obtain ⟨hv2, hres⟩ := bsTry4_ok P resized sys x bsDxdt t bsXnew dt (by rw [onHeap_ctl h1]; exact hv) h2
  refine ⟨?_, hres⟩
  split at h3
  · rw [onHeap_ctl h3]; exact hv2
  · cases h3; exact hv2

end

/-- the factor of `calc_h_opt` is positive, whatever the error is, and less than one if the error is not less than one -/
theorem bsFac_pos (e : ℝ) {k : ℕ} (hk : 1 ≤ k) (hk8 : k ≤ 8) : 0 < bsFac bsRules (realOps 0) e k ∧ (1 ≤ e → bsFac bsRules (realOps 0) e k < 1) := by
  refine ⟨?_, fun h => lt_of_le_of_lt ((bsFac_bounds (by linarith) hk hk8).2.1 h) (by norm_num)⟩
  obtain ⟨hm5, -⟩ := bsFacmin_bounds hk
  have hm : 0 < bsFacmin (realOps 0) k := by linarith
  have h1 : ∀ a b : ℝ, (realOps 0).max a b = max a b := by
    intro a b
    show (if decide (a < b) = true then b else a) = _
    by_cases h : a < b
    · rw [if_pos (by simpa using h), max_eq_right h.le]
    · rw [if_neg (by simpa using h), max_eq_left (not_lt.1 h)]
  unfold bsFac
  split
  · simp only [lit, Int.cast_one]; positivity
  · rw [h1]
    refine lt_of_lt_of_le ?_ (le_max_left _ _)
    simp only [lit, Int.cast_ofNat]
    positivity

theorem LoopEnd.newH_pos {c : BsCtl ℝ} {dt e : ℝ} {k : ℕ} {b : BsBreak ℝ} (hL : LoopEnd bsRules (realOps 0) c dt (fun _ => True) k e b) :
    ∃ q : ℝ, b.newH = dt * q ∧ 0 < q ∧ (b.reject = true → q < 1) := by
  have hlt : ∀ e : ℝ, (realOps 0).lt e (lit 1) = false ↔ 1 ≤ e := by
    intro e
    show decide (e < ((1 : ℤ) : ℝ)) = false ↔ _
    simp
  cases hb : b.reject with
  | true =>
    obtain ⟨-, j, e', h1, h2, -, h4, h5⟩ := hL.rej hb
    obtain ⟨b1, b2⟩ := bsFac_pos e' h1 h2
    exact ⟨_, h5, b1, fun _ => b2 ((hlt _).1 h4)⟩
  | false =>
    obtain ⟨-, j, e', h1, h2, -, h5⟩ := hL.acc hb
    obtain ⟨b1, -⟩ := bsFac_pos e' h1 h2
    rcases h5 with h5 | ⟨a, ha, h5⟩
    · exact ⟨_, h5, b1, fun h => (nomatch h)⟩
    · have cpos : ∀ j, (0 : ℝ) < bsCost (bsRules : BsRules ℝ) j := by
        intro j
        have : 0 < bsCost (bsRules : BsRules ℝ) j := by
          cases j with
          | zero => show 0 < interval 0; unfold interval; omega
          | succ j => exact Nat.add_pos_right _ (by show 0 < interval _; unfold interval; omega)
        exact_mod_cast this
      refine ⟨bsFac bsRules (realOps 0) e' j * ((bsCost (bsRules : BsRules ℝ) a : ℝ) / bsCost (bsRules : BsRules ℝ) j), ?_,
        mul_pos b1 (div_pos (cpos a) (cpos j)), fun h => (nomatch h)⟩
      rw [h5]
      simp only [bsRules, bsCalcHopt, lit]
      push_cast
      ring

theorem SameDir.sign {dt d : ℝ} (h : SameDir dt d) : ∃ σ : ℝ, (σ = 1 ∨ σ = -1) ∧ ∀ a, SameDir dt a ↔ 0 < σ * a := by
  rcases h with h | h
  · refine ⟨1, .inl rfl, fun a => ⟨fun ha => ?_, fun ha => .inl ⟨h.1, by linarith⟩⟩⟩
    rcases ha with ha | ha
    · linarith [ha.2]
    · linarith [ha.1, h.1]
  · refine ⟨-1, .inr rfl, fun a => ⟨fun ha => ?_, fun ha => .inr ⟨h.1, by linarith⟩⟩⟩
    rcases ha with ha | ha
    · linarith [ha.1, h.1]
    · linarith [ha.2]

variable {V W U : Type} [StateOps ℝ V]

theorem bsTry1_forward (P : BsParams ℝ V) (hO : P.ops = realOps 0) (resized : Bool) (sys : Sys ℝ V W) (x : Loc) (t d dt : ℝ) {s s' : BsState ℝ V W}
    (hv : s.ctl.Valid) (hm : P.maxDt = 0 ∨ SameDir dt P.maxDt) (hd : SameDir dt d) {r : TryOut ℝ} (h : bsTry1 P resized sys x t d s = .ok r s') :
    s'.ctl.Valid ∧ SameDir dt r.dt ∧ (r.success = true → r.t = t + d) ∧ (r.success = false → r.t = t ∧ |r.dt| ≤ |d|) := by
  obtain ⟨σ, hσ, hdir⟩ := hd.sign
  have hσ2 : σ * σ = 1 := by rcases hσ with h | h <;> rw [h] <;> ring
  have hdp := (hdir d).1 hd
  have hlim : LimitIs σ P.maxDt (if P.maxDt = 0 then σ * d else σ * P.maxDt) := by
    by_cases h0 : P.maxDt = 0
    · exact .inl h0
    · rw [if_neg h0]
      exact .inr ⟨by rw [← mul_assoc, hσ2, one_mul], (hdir _).1 (hm.resolve_left h0)⟩
  obtain ⟨hv', hres⟩ := bsTry1_ok P resized sys x t d hv h
  refine ⟨hv', ?_⟩
  rcases hres with ⟨hl, rfl⟩ | ⟨hl, c, b, k, e, rfl, hL⟩
  · obtain ⟨h0, h1⟩ := (bsTooLong_iff hO hσ hlim hdp).1 hl
    rw [if_neg h0] at h1
    have hmd := hm.resolve_left h0
    refine ⟨hmd, by simp, fun _ => ⟨rfl, ?_⟩⟩
    show |P.maxDt| ≤ |d|
    rw [abs_of_sign hσ hdp.le, abs_of_sign hσ ((hdir _).1 hmd).le]
    exact h1.le
  · have hdL : σ * d ≤ (if P.maxDt = 0 then σ * d else σ * P.maxDt) := by
      split
      · exact le_rfl
      · rename_i h0
        by_contra hlt
        rw [(bsTooLong_iff hO hσ hlim hdp).2 ⟨h0, by rw [if_neg h0]; exact not_le.1 hlt⟩] at hl
        cases hl
    rw [hO] at hL
    obtain ⟨q, hq, hq0, hq1⟩ := hL.newH_pos
    obtain ⟨hlo, hhi⟩ := bsResult_dt (P := P) (t := t) (c := c) hO hσ hlim hdp hdL hq hq0
    have hpos : 0 < σ * (bsResult P c b t d).dt :=
      lt_of_lt_of_le (lt_min (mul_pos hdp (lt_min one_pos hq0)) (hdp.trans_le hdL)) hlo
    refine ⟨(hdir _).2 hpos, fun hs => ?_, fun hs => ?_⟩
    · have hb : b.reject = false := by
        have : (!b.reject) = true := hs
        simpa using this
      show (if b.reject then t else t + d) = t + d
      rw [hb]; rfl
    · have hb : b.reject = true := by
        have : (!b.reject) = false := hs
        simpa using this
      refine ⟨?_, ?_⟩
      · show (if b.reject then t else t + d) = t
        rw [hb]; rfl
      · rw [abs_of_sign hσ hdp.le, abs_of_sign hσ hpos.le]
        exact (hhi (hq1 hb)).trans (by nlinarith [hq1 hb])

end Verif
