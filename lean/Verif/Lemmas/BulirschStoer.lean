import Verif.Model.BulirschStoer
import Verif.Lemmas.AdaptiveAdams
import Verif.Lemmas.Midpoint

/-!
# The order and step size control of the Bulirsch-Stoer steppers
-/

namespace Verif
set_option linter.unusedSectionVars false
variable {K V W S : Type} [Add K] [Sub K] [Mul K] [Div K] [Neg K] [IntCast K]

section Decide
variable (R : BsRules K) (O : NumOps K) (c : BsCtl K) (k : ℕ) (error : K) (hopt work : ℕ → K)

theorem bsShouldReject_ok (hR : ∀ kopt, R.rejIdx kopt ≤ kopt + 1) (h2 : c.kopt ≤ 7) (s : S) :
    ∃ r, bsShouldReject R O c.kopt error k s = .ok r s := by
  have := hR c.kopt
  unfold bsShouldReject
  split
  · rw [M.bind_ok (chk_ok (by unfold bsSize; omega) _)]
    exact ⟨_, rfl⟩
  · split
    · rw [M.bind_ok (chk_ok (by unfold bsSize; omega) _)]
      exact ⟨_, rfl⟩
    · exact ⟨_, rfl⟩

/-- a `break` at stage `k` -/
structure BreakAt (R : BsRules K) (O : NumOps K) (c : BsCtl K) (k : ℕ) (error : K) (hopt : ℕ → K) (b : BsBreak K) : Prop where
  lo : 2 ≤ b.kopt
  hi : b.kopt ≤ 7
  rej : b.reject = true → O.lt error (lit 1) = false ∧ (b.newH = hopt k ∨ (k = c.kopt + 1 ∧ b.newH = hopt c.kopt))
  acc : b.reject = false → O.lt error (lit 1) = true ∧
    ∃ j, 1 ≤ j ∧ j ≤ k ∧ (b.newH = hopt j ∨ ∃ a, j ≤ a ∧ b.newH = R.grow (hopt j) (lit (bsCost R a)) (lit (bsCost R j)))

theorem bsBefore_ok (hR : ∀ kopt, R.rejIdx kopt ≤ kopt + 1) (h1 : 2 ≤ c.kopt) (h2 : c.kopt ≤ 7) (hf : c.first = true → c.kopt ≤ 6) (hk1 : 1 ≤ k)
    (hk2 : k ≤ c.kopt + 1) (s : S) :
    ∃ r, bsBefore R O c k error hopt work s = .ok r s ∧ ∀ b, r = some b → BreakAt R O c k error hopt b := by
  unfold bsBefore
  split
  · rename_i hc
    have hk : k + 1 < 9 := by
      rcases hc with h | h
      · omega
      · have := hf h; omega
    split
    · rename_i hlt
      rw [M.bind_ok (chk_ok (by unfold bsSize; omega) _)]
      split
      · rw [M.bind_ok (chk_ok (by unfold bsSize; omega) _)]
        refine ⟨_, rfl, ?_⟩
        intro b hb
        injection hb with hb
        subst hb
        exact ⟨by show 2 ≤ min 7 (max 2 (k + 1)); omega, by show min 7 (max 2 (k + 1)) ≤ 7; omega, fun h => (nomatch h),
          fun _ => ⟨hlt, k, hk1, le_rfl, Or.inr ⟨k + 1, Nat.le_succ _, rfl⟩⟩⟩
      · refine ⟨_, rfl, ?_⟩
        intro b hb
        injection hb with hb
        subst hb
        exact ⟨by show 2 ≤ min 7 (max 2 k); omega, by show min 7 (max 2 k) ≤ 7; omega, fun h => (nomatch h),
          fun _ => ⟨hlt, k, hk1, le_rfl, Or.inl rfl⟩⟩
    · rename_i hlt
      obtain ⟨r, hr⟩ := bsShouldReject_ok R O c k error hR h2 s
      rw [M.bind_ok hr]
      split
      · refine ⟨_, rfl, ?_⟩
        intro b hb
        injection hb with hb
        subst hb
        exact ⟨h1, h2, fun _ => ⟨Bool.eq_false_iff.mpr hlt, Or.inl rfl⟩, fun h => (nomatch h)⟩
      · exact ⟨_, rfl, fun b hb => (nomatch hb)⟩
  · exact ⟨_, rfl, fun b hb => (nomatch hb)⟩

theorem bsAt_ok (hR : ∀ kopt, R.rejIdx kopt ≤ kopt + 1) (h1 : 2 ≤ c.kopt) (h2 : c.kopt ≤ 7) (hk1 : 1 ≤ k)
    (hk2 : k ≤ c.kopt + 1) (s : S) :
    ∃ r, bsAt R O c k error hopt work s = .ok r s ∧ (∀ b, r = some b → BreakAt R O c k error hopt b) ∧
      (r = none → k = c.kopt → O.lt error (lit 1) = false) := by
  unfold bsAt
  split
  · rename_i hc
    split
    · rename_i hlt
      rw [M.bind_ok (chk_ok (by unfold bsSize; omega) _)]
      split
      · rw [M.bind_ok (chk_ok (by unfold bsSize; omega) _)]
        refine ⟨_, rfl, ?_, fun h => (nomatch h)⟩
        intro b hb
        injection hb with hb
        subst hb
        exact ⟨by show 2 ≤ max 2 (c.kopt - 1); omega, by show max 2 (c.kopt - 1) ≤ 7; omega, fun h => (nomatch h),
          fun _ => ⟨hlt, max 2 (c.kopt - 1), by omega, by omega, Or.inl rfl⟩⟩
      · split
        · rw [M.bind_ok (chk_ok (by unfold bsSize; omega) _)]
          refine ⟨_, rfl, ?_, fun h => (nomatch h)⟩
          intro b hb
          injection hb with hb
          subst hb
          exact ⟨by show 2 ≤ min 7 (c.kopt + 1); omega, by show min 7 (c.kopt + 1) ≤ 7; omega, fun h => (nomatch h),
            fun _ => ⟨hlt, k, hk1, le_rfl, Or.inr ⟨_, by omega, rfl⟩⟩⟩
        · refine ⟨_, rfl, ?_, fun h => (nomatch h)⟩
          intro b hb
          injection hb with hb
          subst hb
          exact ⟨h1, h2, fun h => (nomatch h), fun _ => ⟨hlt, c.kopt, by omega, by omega, Or.inl rfl⟩⟩
    · rename_i hlt
      obtain ⟨r, hr⟩ := bsShouldReject_ok R O c k error hR h2 s
      rw [M.bind_ok hr, M.bind_ok (chk_ok (by unfold bsSize; omega) _)]
      split
      · refine ⟨_, rfl, ?_, fun h => (nomatch h)⟩
        intro b hb
        injection hb with hb
        subst hb
        exact ⟨h1, h2, fun _ => ⟨Bool.eq_false_iff.mpr hlt, Or.inl (by rw [hc])⟩, fun h => (nomatch h)⟩
      · exact ⟨_, rfl, fun b hb => (nomatch hb), fun _ _ => Bool.eq_false_iff.mpr hlt⟩
  · rename_i hc
    exact ⟨_, rfl, fun b hb => (nomatch hb), fun _ h => absurd h hc⟩

theorem bsAfter_ok (h1 : 2 ≤ c.kopt) (h2 : c.kopt ≤ 7) (hk1 : 1 ≤ k) (hk2 : k ≤ c.kopt + 1) (s : S) :
    ∃ r, bsAfter O c k error hopt work s = .ok r s ∧ (∀ b, r = some b → BreakAt R O c k error hopt b) ∧ (r = none → k ≤ c.kopt) := by
  unfold bsAfter
  split
  · rename_i hc
    split
    · rename_i hlt
      have hL : 2 ≤ bsLower O c k work ∧ bsLower O c k work ≤ c.kopt := by unfold bsLower; split <;> omega
      have hH : 2 ≤ bsRaise O c k work (bsLower O c k work) ∧ bsRaise O c k work (bsLower O c k work) ≤ 7 ∧
          bsRaise O c k work (bsLower O c k work) ≤ k := by
        unfold bsRaise; split <;> omega
      rw [M.bind_ok (chk_ok (by unfold bsSize; omega) _), M.bind_ok (chk_ok (by unfold bsSize; omega) _),
        M.bind_ok (chk_ok (by unfold bsSize; omega) _)]
      refine ⟨_, rfl, ?_, fun h => (nomatch h)⟩
      intro b hb
      injection hb with hb
      subst hb
      exact ⟨hH.1, hH.2.1, fun h => (nomatch h), fun _ => ⟨hlt, _, by omega, hH.2.2, Or.inl rfl⟩⟩
    · rename_i hlt
      rw [M.bind_ok (chk_ok (by unfold bsSize; omega) _)]
      refine ⟨_, rfl, ?_, fun h => (nomatch h)⟩
      intro b hb
      injection hb with hb
      subst hb
      exact ⟨h1, h2, fun _ => ⟨Bool.eq_false_iff.mpr hlt, Or.inr ⟨hc, rfl⟩⟩, fun h => (nomatch h)⟩
  · exact ⟨_, rfl, fun b hb => (nomatch hb), fun _ => by omega⟩

theorem bsDecide_ok (hR : ∀ kopt, R.rejIdx kopt ≤ kopt + 1) (h1 : 2 ≤ c.kopt) (h2 : c.kopt ≤ 7) (hf : c.first = true → c.kopt ≤ 6) (hk1 : 1 ≤ k)
    (hk2 : k ≤ c.kopt + 1) (s : S) :
    ∃ r, bsDecide R O c k error hopt work s = .ok r s ∧ (∀ b, r = some b → BreakAt R O c k error hopt b) ∧
      (r = none → k ≤ c.kopt ∧ (k = c.kopt → O.lt error (lit 1) = false)) := by
  unfold bsDecide
  obtain ⟨r1, e1, b1⟩ := bsBefore_ok R O c k error hopt work hR h1 h2 hf hk1 hk2 s
  rw [orNext, M.bind_ok e1]
  cases r1 with
  | some b => exact ⟨_, rfl, fun b' hb' => b1 b' hb', fun h => (nomatch h)⟩
  | none =>
    obtain ⟨r2, e2, b2, n2⟩ := bsAt_ok R O c k error hopt work hR h1 h2 hk1 hk2 s
    dsimp only
    rw [orNext, M.bind_ok e2]
    cases r2 with
    | some b => exact ⟨_, rfl, fun b' hb' => b2 b' hb', fun h => (nomatch h)⟩
    | none =>
      obtain ⟨r3, e3, b3, n3⟩ := bsAfter_ok R O c k error hopt work h1 h2 hk1 hk2 s
      exact ⟨r3, e3, b3, fun h => ⟨n3 h, n2 rfl⟩⟩

end Decide

/-- the outcome of the loop over the stages, after stage `k` with the error `error`; `PE` holds for all errors -/
structure LoopEnd (R : BsRules K) (O : NumOps K) (c : BsCtl K) (dt : K) (PE : K → Prop) (k : ℕ) (error : K) (b : BsBreak K) : Prop where
  k1 : 1 ≤ k
  k2 : k ≤ c.kopt + 1
  lo : 2 ≤ b.kopt
  hi : b.kopt ≤ 7
  rej : b.reject = true → O.lt error (lit 1) = false ∧
    ∃ j e, 1 ≤ j ∧ j ≤ 8 ∧ PE e ∧ O.lt e (lit 1) = false ∧ b.newH = bsCalcHopt R O dt e j
  acc : b.reject = false → O.lt error (lit 1) = true ∧
    ∃ j e, 1 ≤ j ∧ j ≤ 8 ∧ PE e ∧ (b.newH = bsCalcHopt R O dt e j ∨
      ∃ a, j ≤ a ∧ b.newH = R.grow (bsCalcHopt R O dt e j) (lit (bsCost R a)) (lit (bsCost R j)))

section Loop
variable (R : BsRules K) (O : NumOps K) (c : BsCtl K) (dt : K)

theorem bsLoop_sat (hR : ∀ kopt, R.rejIdx kopt ≤ kopt + 1) (h1 : 2 ≤ c.kopt) (h2 : c.kopt ≤ 7) (hf : c.first = true → c.kopt ≤ 6)
    {D : Prop} {stage0 : M S Unit} {stage : ℕ → M S K} (PE : K → Prop) (I : ℕ → S → Prop) (A : ℕ → K → S → Prop) (X : Err → S → Prop)
    (hs : ∀ k s, 1 ≤ k → k ≤ c.kopt + 1 → I k s → (stage k s).Sat (fun e s' => I (k + 1) s' ∧ A k e s' ∧ PE e) X D) :
    ∀ (n k : ℕ) (hopt work : ℕ → K) (s : S), 1 ≤ k → n + k = c.kopt + 2 → 1 ≤ n → I k s →
      (∀ j, 1 ≤ j → j < k → ∃ e, PE e ∧ hopt j = bsCalcHopt R O dt e j ∧ (j = c.kopt → O.lt e (lit 1) = false)) →
      (bsLoop R O c dt stage0 stage n k hopt work s).Sat
        (fun r s' => ∃ b k e, r = some b ∧ I (k + 1) s' ∧ A k e s' ∧ PE e ∧ LoopEnd R O c dt PE k e b) X D := by
  intro n
  induction n with
  | zero => intro k hopt work s _ _ h; omega
  | succ n ih =>
    intro k hopt work s hk hn _ hI hh
    rw [bsLoop, if_neg (by omega), M.bind_ok (chk_ok (by unfold bsSize; omega) _)]
    apply Res.Sat.bind
    refine (hs k s hk (by omega) hI).mono ?_ (fun _ _ h => h) (fun h => h)
    rintro e s1 ⟨hI1, hA, hPE⟩
    have hh' : ∀ j, 1 ≤ j → j < k + 1 →
        ∃ e', PE e' ∧ Function.update hopt k (bsCalcHopt R O dt e k) j = bsCalcHopt R O dt e' j ∧
          ((j < k ∧ (j = c.kopt → O.lt e' (lit 1) = false)) ∨ (j = k ∧ e' = e)) := by
      intro j hj1 hj2
      by_cases hjk : j = k
      · subst hjk
        exact ⟨e, hPE, by rw [Function.update_self], Or.inr ⟨rfl, rfl⟩⟩
      · obtain ⟨e', p, q, r⟩ := hh j hj1 (by omega)
        exact ⟨e', p, by rw [Function.update_of_ne hjk]; exact q, Or.inl ⟨by omega, r⟩⟩
    generalize Function.update hopt k (bsCalcHopt R O dt e k) = hopt1 at hh' ⊢
    generalize Function.update work k (lit (bsCost R k) / bsCalcHopt R O dt e k) = work1
    obtain ⟨r, hr, hb, hnone⟩ := bsDecide_ok R O c k e hopt1 work1 hR h1 h2 hf hk (by omega) s1
    rw [orNext, M.bind_ok hr]
    cases r with
    | some b =>
      have hB := hb b rfl
      refine ⟨b, k, e, rfl, hI1, hA, hPE, hk, by omega, hB.lo, hB.hi, ?_, ?_⟩
      · intro hrej
        obtain ⟨hlt, hnew⟩ := hB.rej hrej
        refine ⟨hlt, ?_⟩
        rcases hnew with hnew | ⟨hkk, hnew⟩
        · obtain ⟨e', p, q, r⟩ := hh' k hk (by omega)
          rcases r with ⟨r, -⟩ | ⟨-, r⟩
          · omega
          · subst r
            exact ⟨k, e', hk, by omega, p, hlt, hnew.trans q⟩
        · obtain ⟨e', p, q, r⟩ := hh' c.kopt (by omega) (by omega)
          rcases r with ⟨-, r⟩ | ⟨r, -⟩
          · exact ⟨c.kopt, e', by omega, by omega, p, r rfl, hnew.trans q⟩
          · omega
      · intro hacc
        obtain ⟨hlt, j, hj1, hj2, hnew⟩ := hB.acc hacc
        obtain ⟨e', p, q, -⟩ := hh' j hj1 (by omega)
        rw [q] at hnew
        exact ⟨hlt, j, e', hj1, by omega, p, hnew⟩
    | none =>
      obtain ⟨hk3, hlt⟩ := hnone rfl
      refine ih (k + 1) hopt1 work1 s1 (by omega) (by omega) (by omega) hI1 ?_
      intro j hj1 hj2
      obtain ⟨e', p, q, r⟩ := hh' j hj1 hj2
      refine ⟨e', p, q, fun hj => ?_⟩
      rcases r with ⟨-, r⟩ | ⟨hjk, r⟩
      · exact r hj
      · subst r
        exact hlt (hjk ▸ hj)

end Loop

end Verif
