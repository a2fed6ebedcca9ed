import Verif.Lemmas.Steppers
import Verif.Spec.Multistep
import Mathlib.Data.Nat.ModEq

/-! The Adams steppers implement their formulas. -/

set_option linter.unusedSectionVars false

namespace Verif
variable {K V W : Type}

/-! ## The buffer -/

@[simp] theorem Heap.putNat_state (h : Heap K V W) (l : Loc) (n : ℕ) : (h.putNat l n).state = h.state := rfl
@[simp] theorem Heap.putNat_world (h : Heap K V W) (l : Loc) (n : ℕ) : (h.putNat l n).world = h.world := rfl
theorem Heap.putNat_nat (h : Heap K V W) (l l' : Loc) (n : ℕ) :
    (h.putNat l n).nat l' = if l' = l then n else h.nat l' := by
  simp only [Heap.putNat, Function.update_apply]
@[simp] theorem Heap.set_nat' (h : Heap K V W) (l : Loc) (v : V) : (h.set l v).nat = h.nat := rfl

theorem Heap.SameAt.putNat {h : Heap K V W} {l l' : Loc} (n : ℕ) (hne : l ≠ l') : h.SameAt (h.putNat l' n) l :=
  ⟨rfl, rfl, rfl, by rw [Heap.putNat_nat, if_neg hne]⟩

theorem bufIndex_lt {N : ℕ} (hN : 0 < N) (f i : ℕ) : bufIndex N f i < N := Nat.mod_lt _ hN

theorem bufIndex_inj {N f i j : ℕ} (hi : i < N) (hj : j < N) (h : bufIndex N f i = bufIndex N f j) : i = j := by
  unfold bufIndex at h
  have := Nat.ModEq.add_right_cancel' f (show i + f ≡ j + f [MOD N] from h)
  rwa [Nat.ModEq, Nat.mod_eq_of_lt hi, Nat.mod_eq_of_lt hj] at this

theorem bufAt_ok {N : ℕ} (h : Heap K V W) (hf : h.nat mFirst < N) (i : ℕ) :
    bufAt N i h = .ok (bufData (bufIndex N (h.nat mFirst) i)) h := by
  have hN : 0 < N := by omega
  unfold bufAt
  rw [M.bind_ok (show getNat mFirst h = .ok (h.nat mFirst) h from rfl), if_neg (by omega),
    if_pos (bufIndex_lt hN _ _)]
  rfl

theorem bufRefs_ok {N : ℕ} (h : Heap K V W) (hf : h.nat mFirst < N) : ∀ n i,
    bufRefs N n i h = .ok ((List.range' i n).map fun j => bufData (bufIndex N (h.nat mFirst) j)) h
  | 0, i => rfl
  | n + 1, i => by
    unfold bufRefs
    rw [M.bind_ok (bufAt_ok h hf i), M.bind_ok (bufRefs_ok h hf n (i + 1))]
    simp [M.pure_apply, List.range'_succ]

/-- `rotate` moves every slot to the next index. -/
theorem bufRotate_ok {N : ℕ} (h : Heap K V W) (hf : h.nat mFirst < N) :
    ∃ f, bufRotate N h = .ok () (h.putNat mFirst f) ∧ f < N ∧
      ∀ i, bufIndex N f (i + 1) = bufIndex N (h.nat mFirst) i := by
  unfold bufRotate
  rw [M.bind_ok (show getNat mFirst h = .ok (h.nat mFirst) h from rfl)]
  by_cases h0 : h.nat mFirst = 0
  · rw [if_pos h0]
    refine ⟨N - 1, rfl, by omega, fun i => ?_⟩
    unfold bufIndex
    rw [h0, show i + 1 + (N - 1) = i + 0 + N by omega, Nat.add_mod_right]
  · rw [if_neg h0]
    refine ⟨h.nat mFirst - 1, rfl, by omega, fun i => ?_⟩
    unfold bufIndex
    rw [show i + 1 + (h.nat mFirst - 1) = i + h.nat mFirst by omega]

theorem bufData_inj {i j : ℕ} : bufData i = bufData j ↔ i = j := by simp [bufData]

/-! ## Initialising steppers -/

section
variable [Add K] [Sub K] [Mul K] [Div K] [IntCast K] [Neg K] [StateOps K V]

/-- Scratch memory of the initialising steppers. -/
abbrev initOwners : List Owner := [.rk, .midp, .extrap]

/-- Everything the Adams-Bashforth stepper owns. -/
abbrev abOwners : List Owner := [.rk, .midp, .extrap, .multi]

theorem init_implements (s : InitStepper K) (hs : s.WellFormed) (sys : Sys K V W) (inp dxdt out : Loc)
    (t dt : K) (h : Heap K V W) (hinp : ¬ inp.ownedBy initOwners) (hdxdt : ¬ dxdt.ownedBy initOwners)
    (hout : ¬ out.ownedBy initOwners) (hsafe : s.inPlace = true ∨ inp ≠ out) (hdo : dxdt ≠ out) :
    Implements initOwners h (s.impl sys inp dxdt t out dt)
      (s.recipe sys (h.state inp) (h.state dxdt) t dt) (fun v => [(out, v)]) [out] := by
  cases s with
  | explicit s =>
    have := impl_implements s hs sys inp dxdt out t dt h (not_owned_sub hinp (by simp)) (not_owned_sub hdxdt (by simp))
    have := this.weaken (os' := initOwners) (outs' := fun v => [(out, v)]) (exc' := [out]) id (by simp)
      (fun a l _ => Heap.SameAt.refl _ _) (by simp)
    simp only [id, bind_pure] at this
    exact this
  | extrapolation kmax =>
    have := extrapolation_implements kmax hs sys inp dxdt out t dt h (not_owned_sub hinp (by simp))
      (not_owned_sub hdxdt (by simp)) (not_owned_sub hout (by simp))
      (hsafe.resolve_left (by simp [InitStepper.inPlace])) hdo
    exact this.mono_own (by simp)

theorem io_implements (s : InitStepper K) (hs : s.WellFormed) (sys : Sys K V W) (x dxdt : Loc)
    (t dt : K) (h : Heap K V W) (hx : ¬ x.ownedBy initOwners) (hdxdt : ¬ dxdt.ownedBy initOwners) :
    Implements initOwners h (s.io sys x dxdt t dt)
      (s.recipe sys (h.state x) (h.state dxdt) t dt) (fun v => [(x, v)]) [] := by
  cases s with
  | explicit s =>
    exact (impl_implements s hs sys x dxdt x t dt h (not_owned_sub hx (by simp))
      (not_owned_sub hdxdt (by simp))).mono_own (by simp)
  | extrapolation kmax =>
    exact (extrapolationIo_implements kmax hs sys x dxdt t dt h (not_owned_sub hx (by simp))
      (not_owned_sub hdxdt (by simp))).mono_own (by simp)

end

/-! ## One step -/

/-- The outcome of a step in the heap corresponds to the outcome on values. -/
def AdamsOutcome (os : List Owner) (N : ℕ) (h : Heap K V W) (out : Loc) (r : Res (Heap K V W) Unit)
    (s : Res W (V × List V)) : Prop :=
  match s with
  | .ok y w => ∃ h', r = .ok () h' ∧ h'.world = w ∧ h'.state out = y.1 ∧ AdamsMemory N h' y.2 ∧
      ∀ l, ¬ l.ownedBy os → l ≠ out → h.SameAt h' l
  | .err e w => ∃ h', r = .err e h' ∧ h'.world = w ∧ h'.nat mFirst < N ∧
      ∀ l, ¬ l.ownedBy os → l ≠ out → h.SameAt h' l
  | .ub => r = .ub
  | .div => r = .div

/-- The first part of a step: the derivative is stored in slot 0, the older ones have moved on. -/
structure Stored (N : ℕ) (h h' : Heap K V W) (ks : List V) (w : W) : Prop where
  world : h'.world = w
  first : h'.nat mFirst < N
  count : h'.nat mStepsInit = h.nat mStepsInit
  slots : ∀ i v, ks[i]? = some v → h'.state (bufData (bufIndex N (h'.nat mFirst) i)) = v
  frame : ∀ l, ¬ l.ownedBy [.multi] → h.SameAt h' l

theorem not_multi_ne {l : Loc} (hl : ¬ l.ownedBy [.multi]) (i : ℕ) : l ≠ .priv .multi i := ne_priv hl (by simp) i

/-- The content of the buffer after `rotate` and the evaluation of the derivative. -/
theorem stored_rotate {N : ℕ} {h : Heap K V W} {past : List V} (f : ℕ) (hf : f < N)
    (hi : ∀ i, bufIndex N f (i + 1) = bufIndex N (h.nat mFirst) i) (hlen : past.length + 1 ≤ N)
    (hs : ∀ i v, past[i]? = some v → h.state (bufData (bufIndex N (h.nat mFirst) i)) = v) (k : V) (w : W) :
    Stored N h ((h.putNat mFirst f).put (bufData (bufIndex N f 0)) k w) (k :: past) w := by
  refine ⟨rfl, ?_, ?_, ?_, ?_⟩
  · simpa [Heap.putNat_nat] using hf
  · simp [Heap.putNat_nat, mStepsInit, mFirst]
  · intro i v hv
    have e : ((h.putNat mFirst f).put (bufData (bufIndex N f 0)) k w).nat mFirst = f := by simp [Heap.putNat_nat]
    rw [e]
    cases i with
    | zero =>
      simp only [List.getElem?_cons_zero, Option.some.injEq] at hv
      subst hv
      exact Heap.put_state_self _ _ _ _
    | succ i =>
      simp only [List.getElem?_cons_succ] at hv
      have hil : i < past.length := (List.getElem?_eq_some_iff.1 hv).1
      rw [Heap.put_state_ne _ _ _ (by
        rw [Ne, bufData_inj]
        intro he
        have := bufIndex_inj (by omega) (by omega) he
        omega), hi]
      exact hs i v hv
  · intro l hl
    refine (Heap.SameAt.putNat f (not_multi_ne hl 0)).trans ⟨?_, rfl, rfl, rfl⟩
    exact Heap.put_state_ne _ _ _ (not_multi_ne hl _)

/-- The content of the buffer after the first evaluation of the derivative. -/
theorem stored_first {N : ℕ} (h : Heap K V W) (hf : h.nat mFirst < N) (k : V) (w : W) :
    Stored N h (h.put (bufData (bufIndex N (h.nat mFirst) 0)) k w) [k] w := by
  refine ⟨rfl, hf, rfl, ?_, ?_⟩
  · intro i v hv
    cases i with
    | zero =>
      simp only [List.getElem?_cons_zero, Option.some.injEq] at hv
      subst hv
      exact Heap.put_state_self _ _ _ _
    | succ i => simp at hv
  · intro l hl
    exact ⟨Heap.put_state_ne _ _ _ (not_multi_ne hl _), rfl, rfl, rfl⟩

section
variable [Add K] [Sub K] [Mul K] [Div K] [IntCast K] [Neg K] [StateOps K V]

theorem callSys_err {sys : Sys K V W} {src dst : Loc} {t : K} {h : Heap K V W} {e : Err} {w : W}
    (hs : sys (h.state src) t h.world = .err e w) : callSys sys src dst t h = .err e (h.withWorld w) := by
  rw [callSys_apply, hs]
theorem callSys_ok {sys : Sys K V W} {src dst : Loc} {t : K} {h : Heap K V W} {k : V} {w : W}
    (hs : sys (h.state src) t h.world = .ok k w) : callSys sys src dst t h = .ok () (h.put dst k w) := by
  rw [callSys_apply, hs]
theorem callSys_ub {sys : Sys K V W} {src dst : Loc} {t : K} {h : Heap K V W}
    (hs : sys (h.state src) t h.world = .ub) : callSys sys src dst t h = .ub := by
  rw [callSys_apply, hs]
theorem callSys_div {sys : Sys K V W} {src dst : Loc} {t : K} {h : Heap K V W}
    (hs : sys (h.state src) t h.world = .div) : callSys sys src dst t h = .div := by
  rw [callSys_apply, hs]

/-- The warm-up and the regular step begin alike: maybe `rotate`, then the derivative is evaluated and stored. -/
theorem evalStore {α : Type} {N : ℕ} {h : Heap K V W} {past : List V} (hf : h.nat mFirst < N)
    (hlen : past.length + 1 ≤ N)
    (hs : ∀ i v, past[i]? = some v → h.state (bufData (bufIndex N (h.nat mFirst) i)) = v) (rot : Bool)
    (hr : rot = false → past = []) (sys : Sys K V W) (inp : Loc) (hinp : ¬ inp.ownedBy [.multi]) (t : K)
    (q : Loc → StepM K V W α) :
    let p : StepM K V W α := if rot = true then bufRotate N >>= fun _ => bufAt N 0 >>= fun s =>
      callSys sys inp s t >>= fun _ => q s else bufAt N 0 >>= fun s => callSys sys inp s t >>= fun _ => q s
    match sys (h.state inp) t h.world with
    | .ok k w => ∃ h₁, p h = q (bufData (bufIndex N (h₁.nat mFirst) 0)) h₁ ∧ Stored N h h₁ (k :: past) w
    | .err e w => ∃ h₁, p h = .err e h₁ ∧ h₁.world = w ∧ h₁.nat mFirst < N ∧ ∀ l, ¬ l.ownedBy [.multi] → h.SameAt h₁ l
    | .ub => p h = .ub
    | .div => p h = .div := by
  intro p
  cases rot with
  | true =>
    obtain ⟨f, r1, r2, r3⟩ := bufRotate_ok h hf
    have hfst : (h.putNat mFirst f).nat mFirst = f := by simp [Heap.putNat_nat]
    have hp : p h = (callSys sys inp (bufData (bufIndex N f 0)) t >>= fun _ => q (bufData (bufIndex N f 0)))
        (h.putNat mFirst f) := by
      show (if true = true then _ else _ : StepM K V W α) h = _
      rw [if_pos rfl, M.bind_ok r1, M.bind_ok (bufAt_ok (h.putNat mFirst f) (by rw [hfst]; exact r2) 0), hfst]
    rw [hp]
    cases e : sys (h.state inp) t h.world with
    | ok k w =>
      rw [M.bind_ok (callSys_ok (h := h.putNat mFirst f) e)]
      refine ⟨_, ?_, stored_rotate f r2 r3 (by omega) hs k w⟩
      simp [Heap.putNat_nat]
    | err er w =>
      rw [M.bind_err (callSys_err (h := h.putNat mFirst f) e)]
      refine ⟨_, rfl, rfl, ?_, fun l hl => ?_⟩
      · simpa [Heap.withWorld, hfst] using r2
      · exact (Heap.SameAt.putNat f (not_multi_ne hl 0)).trans ⟨rfl, rfl, rfl, rfl⟩
    | ub => rw [M.bind_ub (callSys_ub (h := h.putNat mFirst f) e)]
    | div => rw [M.bind_div (callSys_div (h := h.putNat mFirst f) e)]
  | false =>
    obtain rfl := hr rfl
    have hp : p h = (callSys sys inp (bufData (bufIndex N (h.nat mFirst) 0)) t >>= fun _ =>
        q (bufData (bufIndex N (h.nat mFirst) 0))) h := by
      show (if false = true then _ else _ : StepM K V W α) h = _
      rw [if_neg (by simp), M.bind_ok (bufAt_ok h hf 0)]
    rw [hp]
    cases e : sys (h.state inp) t h.world with
    | ok k w =>
      rw [M.bind_ok (callSys_ok e)]
      exact ⟨_, rfl, stored_first h hf k w⟩
    | err er w =>
      rw [M.bind_err (callSys_err e)]
      exact ⟨_, rfl, rfl, hf, fun l hl => ⟨rfl, rfl, rfl, rfl⟩⟩
    | ub => rw [M.bind_ub (callSys_ub e)]
    | div => rw [M.bind_div (callSys_div e)]

theorem take_getElem {l : List V} {n i : ℕ} {v : V} (h : (l.take n)[i]? = some v) : l[i]? = some v := by
  rw [List.getElem?_take] at h
  split at h
  · exact h
  · cases h

/-- The slots of the buffer, as a list of values. -/
theorem refs_values {N : ℕ} {h : Heap K V W} {ks : List V}
    (hs : ∀ i v, ks[i]? = some v → h.state (bufData (bufIndex N (h.nat mFirst) i)) = v) (n : ℕ) (hn : n ≤ ks.length) :
    ((List.range' 0 n).map fun j => bufData (bufIndex N (h.nat mFirst) j)).map h.state = ks.take n := by
  apply List.ext_getElem?
  intro i
  rw [List.getElem?_take]
  by_cases hi : i < n
  · rw [if_pos hi]
    have e : ks[i]? = some (ks[i]'(by omega)) := List.getElem?_eq_getElem (by omega)
    rw [e]
    simp only [List.map_map, List.getElem?_map, List.getElem?_range' hi, Option.map_some, Function.comp, Option.some.injEq]
    rw [show 0 + 1 * i = i by omega]
    exact hs i _ e
  · rw [if_neg hi, List.getElem?_eq_none (by simp; omega)]

/-- **One step of `adams_bashforth`** (the size of the state has not changed). -/
theorem abStep_value (N : ℕ) (coef : List K) (init : InitStepper K) (hw : init.WellFormed)
    (sys : Sys K V W) (inp out : Loc) (t dt : K) (h : Heap K V W) (past : List V) (hm : AdamsMemory N h past)
    (hinp : ¬ inp.ownedBy abOwners) (hout : ¬ out.ownedBy abOwners)
    (hip : past.length + 1 < N → init.inPlace = true ∨ inp ≠ out) :
    AdamsOutcome abOwners N h out (abStep N coef init sys false inp t out dt h)
      (abValue N coef init sys past (h.state inp) t dt h.world) := by
  obtain ⟨hf, hc, hs⟩ := hm
  have hN : 0 < N := by omega
  have sub : ∀ l : Loc, ¬ l.ownedBy abOwners → ¬ l.ownedBy [.multi] := fun l hl => not_owned_sub hl (by simp)
  have sub' : ∀ l : Loc, ¬ l.ownedBy abOwners → ¬ l.ownedBy initOwners := fun l hl => not_owned_sub hl (by simp)
  unfold abStep abValue
  simp only [Bool.false_eq_true, if_false]
  rw [M.bind_ok (show getNat mStepsInit h = .ok (h.nat mStepsInit) h from rfl)]
  by_cases hlt : h.nat mStepsInit + 1 < N
  · -- warm-up
    have hlen : past.length = h.nat mStepsInit := by omega
    rw [if_pos hlt]
    have key := evalStore (N := N) (h := h) (past := past) hf (by omega) hs (decide (h.nat mStepsInit ≠ 0))
      (fun h0 => by
        simp only [decide_eq_false_iff_not, not_not] at h0
        exact List.eq_nil_of_length_eq_zero (by omega)) sys inp (sub _ hinp) t
      (fun s => init.impl sys inp s t out dt >>= fun _ => getNat mStepsInit >>= fun c => setNat mStepsInit (c + 1))
    simp only [decide_eq_true_eq] at key
    rw [M.bind_apply (sys (h.state inp) t)]
    cases e : sys (h.state inp) t h.world with
    | err er w =>
      rw [e] at key
      obtain ⟨h₁, k1, k2, k3, k4⟩ := key
      exact ⟨h₁, k1, k2, k3, fun l hl _ => k4 l (sub l hl)⟩
    | ub => rw [e] at key; exact key
    | div => rw [e] at key; exact key
    | ok k w =>
      rw [e] at key
      obtain ⟨h₁, k1, st⟩ := key
      have hlt' : past.length + 1 < N := by omega
      simp only [if_pos hlt']
      have H := init_implements init hw sys inp (bufData (bufIndex N (h₁.nat mFirst) 0)) out t dt h₁ (sub' _ hinp)
        (by simp [bufData, Loc.ownedBy]) (sub' _ hout) (hip hlt') (Ne.symm (ne_priv hout (by simp) _))
      rw [(st.frame inp (sub _ hinp)).1, st.slots 0 k (by simp)] at H
      unfold Implements at H
      rw [st.world] at H
      show AdamsOutcome abOwners N h out _ ((init.recipe sys (h.state inp) k t dt >>= fun y =>
        pure (y, (k :: past).take (N - 1))) w)
      rw [M.bind_apply]
      cases er : init.recipe sys (h.state inp) k t dt w with
      | ok y w' =>
        rw [er] at H
        obtain ⟨h₂, a1, a2, a3⟩ := H
        have bnat : ∀ i, h₂.nat (.priv .multi i) = h₁.nat (.priv .multi i) := fun i => by
          rw [(a3 (.priv .multi i) (by simp [Loc.ownedBy])).2.2.2]; rfl
        have bst : ∀ i, h₂.state (.priv .multi i) = h₁.state (.priv .multi i) := fun i => by
          rw [(a3 (.priv .multi i) (by simp [Loc.ownedBy])).1]
          exact Heap.set_state_ne _ _ (Ne.symm (ne_priv hout (by simp) _))
        refine ⟨h₂.putNat mStepsInit (h₂.nat mStepsInit + 1), ?_, ?_, ?_, ⟨?_, ?_, ?_⟩, ?_⟩
        · refine Eq.trans k1 ?_
          rw [M.bind_ok a1]; rfl
        · simpa using a2
        · rw [Heap.putNat_state, (a3 out (sub' _ hout)).1]; simp
        · rw [Heap.putNat_nat, if_neg (by simp [mFirst, mStepsInit])]
          exact (bnat 0).symm ▸ st.first
        · have b1 := bnat 1
          rw [Heap.putNat_nat, if_pos rfl]
          rw [show h₂.nat mStepsInit = h.nat mStepsInit from b1.trans st.count]
          simp only [List.length_take, List.length_cons]
          omega
        · intro i v hv
          rw [Heap.putNat_nat, if_neg (by simp [mFirst, mStepsInit]), Heap.putNat_state,
            show h₂.nat mFirst = h₁.nat mFirst from bnat 0]
          rw [show h₂.state (bufData (bufIndex N (h₁.nat mFirst) i)) =
            h₁.state (bufData (bufIndex N (h₁.nat mFirst) i)) from bst _]
          exact st.slots i v (take_getElem hv)
        · intro l hl hne
          refine (st.frame l (sub l hl)).trans (Heap.SameAt.trans ?_ (Heap.SameAt.putNat _ (ne_priv hl (by simp) _)))
          exact Heap.SameAt.trans (Heap.SameAt.set_ne _ _ hne) (a3 l (sub' l hl))
      | err ee w' =>
        rw [er] at H
        obtain ⟨h₂, a1, a2, a3⟩ := H
        refine ⟨h₂, ?_, a2, ?_, fun l hl hne => ?_⟩
        · refine Eq.trans k1 ?_
          rw [M.bind_err a1]
        · rw [(a3 mFirst (by simp [mFirst, Loc.ownedBy]) (by simp; exact Ne.symm (ne_priv hout (by simp) _))).2.2.2]
          exact st.first
        · exact (st.frame l (sub l hl)).trans (a3 l (sub' l hl) (by simpa using hne))
      | ub => rw [er] at H; refine Eq.trans k1 ?_; rw [M.bind_ub H]
      | div => rw [er] at H; refine Eq.trans k1 ?_; rw [M.bind_div H]
  · -- regular step
    have hlen : past.length = N - 1 := by omega
    rw [if_neg hlt]
    have key := evalStore (N := N) (h := h) (past := past) hf (by omega) hs true (by simp) sys inp (sub _ hinp) t
      (fun _ => abCallAlgebra N coef inp out dt)
    simp only [if_true] at key
    rw [M.bind_apply (sys (h.state inp) t)]
    cases e : sys (h.state inp) t h.world with
    | err er w =>
      rw [e] at key
      obtain ⟨h₁, k1, k2, k3, k4⟩ := key
      exact ⟨h₁, k1, k2, k3, fun l hl _ => k4 l (sub l hl)⟩
    | ub => rw [e] at key; exact key
    | div => rw [e] at key; exact key
    | ok k w =>
      rw [e] at key
      obtain ⟨h₁, k1, st⟩ := key
      have hlt' : ¬ past.length + 1 < N := by omega
      simp only [if_neg hlt', pure_bind]
      have hval : lin (((lit 1, inp) :: (coef.map (dt * ·)).zip
          ((List.range' 0 N).map fun j => bufData (bufIndex N (h₁.nat mFirst) j))).map fun q => (q.1, h₁.state q.2)) =
          abFormula coef (h.state inp) dt (k :: past) := by
        rw [List.map_cons, map_zip_state, refs_values st.slots N (by simp; omega), (st.frame inp (sub _ hinp)).1,
          List.take_of_length_le (by simp; omega)]
        rfl
      refine ⟨h₁.set out (abFormula coef (h.state inp) dt (k :: past)), ?_, st.world, by simp, ⟨st.first, ?_, ?_⟩, ?_⟩
      · refine Eq.trans k1 ?_
        unfold abCallAlgebra
        rw [M.bind_ok (bufRefs_ok h₁ st.first N 0)]
        simp only [linTo, hval]
      · show min (h₁.nat mStepsInit) (N - 1) = _
        rw [st.count]
        simp only [List.length_take, List.length_cons]
        omega
      · intro i v hv
        rw [Heap.set_nat', Heap.set_state_ne _ _ (show bufData _ ≠ out from Ne.symm (ne_priv hout (o := .multi) (by simp) _))]
        exact st.slots i v (take_getElem hv)
      · intro l hl hne
        exact (st.frame l (sub l hl)).trans (Heap.SameAt.set_ne _ _ hne)

/-- A change of the state size restarts the method. -/
theorem abStep_resized (N : ℕ) (coef : List K) (init : InitStepper K) (sys : Sys K V W) (inp out : Loc) (t dt : K)
    (h : Heap K V W) : abStep N coef init sys true inp t out dt h =
      abStep N coef init sys false inp t out dt (h.putNat mStepsInit 0) := by
  unfold abStep
  simp only [if_true, Bool.false_eq_true, if_false]
  rw [M.bind_ok (show setNat mStepsInit 0 h = .ok () (h.putNat mStepsInit 0) from rfl)]

theorem memory_reset {N : ℕ} {h : Heap K V W} (hf : h.nat mFirst < N) : AdamsMemory N (h.putNat mStepsInit 0) [] := by
  refine ⟨?_, ?_, fun i v hv => by simp at hv⟩
  · rw [Heap.putNat_nat, if_neg (by simp [mFirst, mStepsInit])]; exact hf
  · rw [Heap.putNat_nat, if_pos rfl]; simp

theorem AdamsOutcome.of_putNat {os : List Owner} {N : ℕ} {h : Heap K V W} {n : ℕ} {out : Loc}
    {r : Res (Heap K V W) Unit} {s : Res W (V × List V)} (hos : Owner.multi ∈ os)
    (H : AdamsOutcome os N (h.putNat mStepsInit n) out r s) : AdamsOutcome os N h out r s := by
  have fr : ∀ l : Loc, ¬ l.ownedBy os → ∀ h', (h.putNat mStepsInit n).SameAt h' l → h.SameAt h' l := fun l hl h' hs =>
    (Heap.SameAt.putNat n (ne_priv hl hos _)).trans hs
  unfold AdamsOutcome at H ⊢
  cases s with
  | ok y w =>
    obtain ⟨h', a1, a2, a3, a4, a5⟩ := H
    exact ⟨h', a1, a2, a3, a4, fun l hl hne => fr l hl h' (a5 l hl hne)⟩
  | err e w =>
    obtain ⟨h', a1, a2, a3, a4⟩ := H
    exact ⟨h', a1, a2, a3, fun l hl hne => fr l hl h' (a4 l hl hne)⟩
  | ub => exact H
  | div => exact H

/-- **One step of `adams_bashforth`**, also after a change of the state size. -/
theorem abStep_value' (N : ℕ) (coef : List K) (init : InitStepper K) (hw : init.WellFormed)
    (sys : Sys K V W) (resized : Bool) (inp out : Loc) (t dt : K) (h : Heap K V W) (past : List V)
    (hm : AdamsMemory N h past) (hinp : ¬ inp.ownedBy abOwners) (hout : ¬ out.ownedBy abOwners)
    (hip : resized = true ∨ past.length + 1 < N → init.inPlace = true ∨ inp ≠ out) :
    AdamsOutcome abOwners N h out (abStep N coef init sys resized inp t out dt h)
      (abValue N coef init sys (if resized then [] else past) (h.state inp) t dt h.world) := by
  cases resized with
  | false => exact abStep_value N coef init hw sys inp out t dt h past hm hinp hout fun h' => hip (.inr h')
  | true =>
    rw [abStep_resized]
    exact (abStep_value N coef init hw sys inp out t dt (h.putNat mStepsInit 0) [] (memory_reset hm.1) hinp hout
      fun _ => hip (.inl rfl)).of_putNat (by simp)

/-! ## `initialize` -/

theorem abInitLoop_value (N : ℕ) (init : InitStepper K) (hw : init.WellFormed) (sys : Sys K V W) (x : Loc)
    (hx : ¬ x.ownedBy abOwners) (dt : K) : ∀ (n i : ℕ) (t : K) (h : Heap K V W) (past : List V),
    h.nat mFirst < N → past.length = i → i + n + 1 ≤ N →
    (∀ i v, past[i]? = some v → h.state (bufData (bufIndex N (h.nat mFirst) i)) = v) →
    match abInitValue init sys dt n past (h.state x) t h.world with
    | .ok r w => ∃ h', abInitLoop N init sys x dt n i t h = .ok r.2.2 h' ∧ h'.world = w ∧ h'.state x = r.1 ∧
        h'.nat mFirst < N ∧ r.2.1.length = i + n ∧
        (∀ i v, r.2.1[i]? = some v → h'.state (bufData (bufIndex N (h'.nat mFirst) i)) = v) ∧
        ∀ l, ¬ l.ownedBy abOwners → l ≠ x → h.SameAt h' l
    | .err e w => ∃ h', abInitLoop N init sys x dt n i t h = .err e h' ∧ h'.world = w ∧ h'.nat mFirst < N ∧
        ∀ l, ¬ l.ownedBy abOwners → l ≠ x → h.SameAt h' l
    | .ub => abInitLoop N init sys x dt n i t h = .ub
    | .div => abInitLoop N init sys x dt n i t h = .div
  | 0, i, t, h, past, hf, hl, hN, hs => ⟨h, rfl, rfl, rfl, hf, hl, hs, fun l _ _ => Heap.SameAt.refl _ _⟩
  | n + 1, i, t, h, past, hf, hl, hN, hs => by
    have sub : ∀ l : Loc, ¬ l.ownedBy abOwners → ¬ l.ownedBy [.multi] := fun l hl => not_owned_sub hl (by simp)
    have sub' : ∀ l : Loc, ¬ l.ownedBy abOwners → ¬ l.ownedBy initOwners := fun l hl => not_owned_sub hl (by simp)
    unfold abInitLoop abInitValue
    have key := evalStore (N := N) (h := h) (past := past) hf (by omega) hs (decide (i ≠ 0))
      (fun h0 => by
        simp only [decide_eq_false_iff_not, not_not] at h0
        exact List.eq_nil_of_length_eq_zero (by omega)) sys x (sub _ hx) t
      (fun s => init.io sys x s t dt >>= fun _ => abInitLoop N init sys x dt n (i + 1) (t + dt))
    simp only [decide_eq_true_eq] at key
    rw [M.bind_apply (sys (h.state x) t)]
    cases e : sys (h.state x) t h.world with
    | err er w =>
      rw [e] at key
      obtain ⟨h₁, k1, k2, k3, k4⟩ := key
      exact ⟨h₁, k1, k2, k3, fun l hl _ => k4 l (sub l hl)⟩
    | ub => rw [e] at key; exact key
    | div => rw [e] at key; exact key
    | ok k w =>
      rw [e] at key
      obtain ⟨h₁, k1, st⟩ := key
      have H := io_implements init hw sys x (bufData (bufIndex N (h₁.nat mFirst) 0)) t dt h₁ (sub' _ hx)
        (by simp [bufData, Loc.ownedBy])
      rw [(st.frame x (sub _ hx)).1, st.slots 0 k (by simp)] at H
      unfold Implements at H
      rw [st.world] at H
      dsimp only
      rw [M.bind_apply]
      cases er : init.recipe sys (h.state x) k t dt w with
      | ok y w' =>
        rw [er] at H
        obtain ⟨h₂, a1, a2, a3⟩ := H
        have bnat : ∀ i, h₂.nat (.priv .multi i) = h₁.nat (.priv .multi i) := fun i => by
          rw [(a3 (.priv .multi i) (by simp [Loc.ownedBy])).2.2.2]; rfl
        have bst : ∀ i, h₂.state (.priv .multi i) = h₁.state (.priv .multi i) := fun i => by
          rw [(a3 (.priv .multi i) (by simp [Loc.ownedBy])).1]
          exact Heap.set_state_ne _ _ (Ne.symm (ne_priv hx (by simp) _))
        have hxy : h₂.state x = y := by rw [(a3 x (sub' _ hx)).1]; simp
        have ih := abInitLoop_value N init hw sys x hx dt n (i + 1) (t + dt) h₂ (k :: past)
          (by rw [show h₂.nat mFirst = h₁.nat mFirst from bnat 0]; exact st.first) (by simp [hl]) (by omega)
          (fun j v hv => by
            rw [show h₂.nat mFirst = h₁.nat mFirst from bnat 0]
            rw [show h₂.state (bufData (bufIndex N (h₁.nat mFirst) j)) =
              h₁.state (bufData (bufIndex N (h₁.nat mFirst) j)) from bst _]
            exact st.slots j v hv)
        have hp : ∀ R : Res (Heap K V W) K, abInitLoop N init sys x dt n (i + 1) (t + dt) h₂ = R →
            (if i ≠ 0 then bufRotate N >>= fun _ => bufAt N 0 >>= fun s => callSys sys x s t >>= fun _ =>
                init.io sys x s t dt >>= fun _ => abInitLoop N init sys x dt n (i + 1) (t + dt)
              else bufAt N 0 >>= fun s => callSys sys x s t >>= fun _ =>
                init.io sys x s t dt >>= fun _ => abInitLoop N init sys x dt n (i + 1) (t + dt)) h = R := by
          intro R hR
          refine Eq.trans k1 ?_
          rw [M.bind_ok a1, hR]
        have fr : ∀ l, ¬ l.ownedBy abOwners → l ≠ x → h.SameAt h₂ l := fun l hl hne =>
          (st.frame l (sub l hl)).trans ((Heap.SameAt.set_ne _ _ hne).trans (a3 l (sub' l hl)))
        rw [hxy, a2] at ih
        dsimp only
        cases ev : abInitValue init sys dt n (k :: past) y (t + dt) w' with
        | ok r w'' =>
          rw [ev] at ih
          obtain ⟨h₃, b1, b2, b3, b4, b5, b6, b7⟩ := ih
          exact ⟨h₃, hp _ b1, b2, b3, b4, by omega, b6, fun l hl hne => (fr l hl hne).trans (b7 l hl hne)⟩
        | err ee w'' =>
          rw [ev] at ih
          obtain ⟨h₃, b1, b2, b3, b4⟩ := ih
          exact ⟨h₃, hp _ b1, b2, b3, fun l hl hne => (fr l hl hne).trans (b4 l hl hne)⟩
        | ub => rw [ev] at ih; exact hp _ ih
        | div => rw [ev] at ih; exact hp _ ih
      | err ee w' =>
        rw [er] at H
        obtain ⟨h₂, a1, a2, a3⟩ := H
        refine ⟨h₂, ?_, a2, ?_, fun l hl hne => ?_⟩
        · refine Eq.trans k1 ?_
          rw [M.bind_err a1]
        · rw [(a3 mFirst (by simp [mFirst, Loc.ownedBy]) (by simp)).2.2.2]
          exact st.first
        · exact (st.frame l (sub l hl)).trans (a3 l (sub' l hl) (by simp))
      | ub => rw [er] at H; refine Eq.trans k1 ?_; rw [M.bind_ub H]
      | div => rw [er] at H; refine Eq.trans k1 ?_; rw [M.bind_div H]

/-- **`initialize`**: `N-1` steps of the initialising stepper, whose derivatives are stored. -/
theorem abInitialize_value (N : ℕ) (init : InitStepper K) (hw : init.WellFormed) (sys : Sys K V W) (x : Loc)
    (hx : ¬ x.ownedBy abOwners) (t dt : K) (h : Heap K V W) (hf : h.nat mFirst < N) :
    match abInitValue init sys dt (N - 1) [] (h.state x) t h.world with
    | .ok r w => ∃ h', abInitialize N init sys x t dt h = .ok r.2.2 h' ∧ h'.world = w ∧ h'.state x = r.1 ∧
        AdamsMemory N h' r.2.1 ∧ ∀ l, ¬ l.ownedBy abOwners → l ≠ x → h.SameAt h' l
    | .err e w => ∃ h', abInitialize N init sys x t dt h = .err e h' ∧ h'.world = w ∧ h'.nat mFirst < N ∧
        ∀ l, ¬ l.ownedBy abOwners → l ≠ x → h.SameAt h' l
    | .ub => abInitialize N init sys x t dt h = .ub
    | .div => abInitialize N init sys x t dt h = .div := by
  have H := abInitLoop_value N init hw sys x hx dt (N - 1) 0 t h [] hf rfl (by omega) (by simp)
  unfold abInitialize
  cases e : abInitValue init sys dt (N - 1) [] (h.state x) t h.world with
  | ok r w =>
    rw [e] at H
    obtain ⟨h', b1, b2, b3, b4, b5, b6, b7⟩ := H
    refine ⟨h'.putNat mStepsInit N, ?_, b2, b3, ⟨?_, ?_, ?_⟩, fun l hl hne => ?_⟩
    · rw [M.bind_ok b1]; rfl
    · rw [Heap.putNat_nat, if_neg (by simp [mFirst, mStepsInit])]; exact b4
    · rw [Heap.putNat_nat, if_pos rfl]; omega
    · intro i v hv
      rw [Heap.putNat_nat, if_neg (by simp [mFirst, mStepsInit]), Heap.putNat_state]
      exact b6 i v hv
    · exact (b7 l hl hne).trans (Heap.SameAt.putNat _ (ne_priv hl (by simp) _))
  | err er w =>
    rw [e] at H
    obtain ⟨h', b1, b2, b3, b4⟩ := H
    exact ⟨h', M.bind_err b1 _, b2, b3, b4⟩
  | ub => rw [e] at H; exact M.bind_ub H _
  | div => rw [e] at H; exact M.bind_div H _

/-! ## `adams_bashforth_moulton` -/

/-- Everything the Adams-Bashforth-Moulton stepper owns. -/
abbrev abmOwners : List Owner := [.rk, .midp, .extrap, .multi, .corr]

theorem AdamsOutcome.mono {os os' : List Owner} {N : ℕ} {h : Heap K V W} {out : Loc}
    {r : Res (Heap K V W) Unit} {s : Res W (V × List V)} (hos : os ⊆ os')
    (H : AdamsOutcome os N h out r s) : AdamsOutcome os' N h out r s := by
  unfold AdamsOutcome at H ⊢
  cases s with
  | ok y w =>
    obtain ⟨h', a1, a2, a3, a4, a5⟩ := H
    exact ⟨h', a1, a2, a3, a4, fun l hl hne => a5 l (not_owned_sub hl hos) hne⟩
  | err e w =>
    obtain ⟨h', a1, a2, a3, a4⟩ := H
    exact ⟨h', a1, a2, a3, fun l hl hne => a4 l (not_owned_sub hl hos) hne⟩
  | ub => exact H
  | div => exact H

theorem abFormula_take (coef : List K) (x : V) (dt : K) (ks : List V) (N : ℕ) (h : coef.length ≤ N) :
    abFormula coef x dt (ks.take N) = abFormula coef x dt ks := by
  unfold abFormula
  have : (coef.map (dt * ·)).zip (ks.take N) = (coef.map (dt * ·)).zip ks := by
    have e : (coef.map (dt * ·)).take N = coef.map (dt * ·) := List.take_of_length_le (by simpa using h)
    have e2 : (((coef.map (dt * ·)).zip ks).take N) = (coef.map (dt * ·)).zip ks :=
      List.take_of_length_le (by simp; omega)
    rw [← e2]
    conv_lhs => rw [← e]
    exact (List.take_zipWith ..).symm
  rw [this]

/-- **One step of `adams_bashforth_moulton`**; if the size of the state has changed, the method must not have been
running. -/
theorem abmStep_value (N : ℕ) (cb cm : List K) (hcm : cm.length ≤ N) (init : InitStepper K) (hw : init.WellFormed)
    (sys : Sys K V W) (resized : Bool) (inp out : Loc) (t dt : K) (h : Heap K V W) (past : List V)
    (hm : AdamsMemory N h past) (hinp : ¬ inp.ownedBy abmOwners) (hout : ¬ out.ownedBy abmOwners)
    (hsz : resized = true → past.length + 1 < N)
    (hip : resized = true ∨ past.length + 1 < N → init.inPlace = true ∨ inp ≠ out) :
    AdamsOutcome abmOwners N h out (abmStep N cb cm init sys resized inp t out dt h)
      (abmValue N cb cm init sys (if resized then [] else past) (h.state inp) t dt h.world) := by
  have hi : abIsInitialized N h = .ok (decide (N - 1 ≤ h.nat mStepsInit)) h := rfl
  have hfN := hm.1
  have hcnt := hm.2.1
  unfold abmStep
  rw [M.bind_ok hi]
  by_cases hlt : past.length + 1 < N
  · rw [if_neg (by simp; omega)]
    have H := abStep_value' N cb init hw sys resized inp out t dt h past hm (not_owned_sub hinp (by simp))
      (not_owned_sub hout (by simp)) hip
    have e : abValue N cb init sys (if resized then [] else past) (h.state inp) t dt =
        abmValue N cb cm init sys (if resized then [] else past) (h.state inp) t dt := by
      have : (if resized then ([] : List V) else past).length + 1 < N := by
        cases resized
        · exact hlt
        · simp; omega
      unfold abValue abmValue
      simp only [if_pos this]
    rw [e] at H
    exact H.mono (by simp)
  · have hr : resized = false := by
      cases resized with
      | false => rfl
      | true => exact absurd (hsz rfl) hlt
    subst hr
    rw [if_pos (by simp; omega)]
    simp only [Bool.false_eq_true, if_false]
    have H := abStep_value N cb init hw sys inp abmX t dt h past hm (not_owned_sub hinp (by simp))
      (by simp [abmX, Loc.ownedBy]) (fun h' => absurd h' hlt)
    unfold abValue at H
    unfold abmValue
    simp only [if_neg hlt, pure_bind] at H ⊢
    rw [M.bind_apply (sys (h.state inp) t)] at H ⊢
    have sub : ∀ l : Loc, ¬ l.ownedBy abmOwners → ¬ l.ownedBy abOwners := fun l hl => not_owned_sub hl (by simp)
    cases e : sys (h.state inp) t h.world with
    | err er w =>
      rw [e] at H
      obtain ⟨h', a1, a2, a3, a4⟩ := H
      exact ⟨h', M.bind_err a1 _, a2, a3, fun l hl _ => a4 l (sub l hl) (ne_priv hl (by simp) _)⟩
    | ub => rw [e] at H; exact M.bind_ub H _
    | div => rw [e] at H; exact M.bind_div H _
    | ok k w =>
      rw [e] at H
      obtain ⟨h₁, a1, a2, a3, a4, a5⟩ := H
      rw [M.bind_ok a1]
      have hinx : h₁.state inp = h.state inp := (a5 inp (sub _ hinp) (ne_priv hinp (by simp) _)).1
      have hpred : h₁.state abmX = abFormula cb (h.state inp) dt (k :: past) := a3
      have sub1 : ∀ l : Loc, ¬ l.ownedBy abmOwners → l ≠ abmX := fun l hl => ne_priv hl (by simp) _
      have sub2 : ∀ l : Loc, ¬ l.ownedBy abmOwners → l ≠ amDxdt := fun l hl => ne_priv hl (by simp) _
      unfold amStep
      simp only []
      rw [M.bind_apply (sys _ _)]
      cases e2 : sys (abFormula cb (h.state inp) dt (k :: past)) (t + dt) w with
      | err er w' =>
        rw [← hpred, ← a2] at e2
        refine ⟨_, M.bind_err (callSys_err e2) _, rfl, a4.1, fun l hl _ => ?_⟩
        exact (a5 l (sub l hl) (sub1 l hl)).trans ⟨rfl, rfl, rfl, rfl⟩
      | ub => rw [← hpred, ← a2] at e2; exact M.bind_ub (callSys_ub e2) _
      | div => rw [← hpred, ← a2] at e2; exact M.bind_div (callSys_div e2) _
      | ok k' w' =>
        rw [← hpred, ← a2] at e2
        have slots : ∀ i v, ((k :: past).take (N - 1))[i]? = some v →
            (h₁.put amDxdt k' w').state (bufData (bufIndex N ((h₁.put amDxdt k' w').nat mFirst) i)) = v := by
          intro i v hv
          rw [Heap.put_state_ne _ _ _ (by simp [bufData, amDxdt])]
          exact a4.2.2 i v hv
        have hval : lin (((lit 1, inp) :: (cm.map (dt * ·)).zip (amDxdt ::
            (List.range' 0 (N - 1)).map fun j => bufData (bufIndex N ((h₁.put amDxdt k' w').nat mFirst) j))).map
              fun q => (q.1, (h₁.put amDxdt k' w').state q.2)) =
            abFormula cm (h.state inp) dt (k' :: k :: past) := by
          rw [List.map_cons, map_zip_state, List.map_cons, refs_values slots (N - 1) (by simp; omega),
            Heap.put_state_self, Heap.put_state_ne _ _ _ (sub2 _ hinp), hinx, List.take_take, Nat.min_self,
            ← List.take_succ_cons, show N - 1 + 1 = N by omega]
          exact abFormula_take cm (h.state inp) dt (k' :: k :: past) N hcm
        refine ⟨(h₁.put amDxdt k' w').set out (abFormula cm (h.state inp) dt (k' :: k :: past)), ?_, rfl, by simp,
          ⟨a4.1, a4.2.1, ?_⟩, fun l hl hne => ?_⟩
        · rw [M.bind_ok (callSys_ok e2), M.bind_ok (bufRefs_ok (h₁.put amDxdt k' w') a4.1 (N - 1) 0)]
          simp only [linTo, hval]
        · intro i v hv
          rw [Heap.set_nat', Heap.set_state_ne _ _ (show bufData _ ≠ out from
            Ne.symm (ne_priv hout (o := .multi) (by simp) _))]
          exact slots i v hv
        · exact (a5 l (sub l hl) (sub1 l hl)).trans (Heap.SameAt.trans
            ⟨Heap.put_state_ne _ _ _ (sub2 l hl), rfl, rfl, rfl⟩ (Heap.SameAt.set_ne _ _ hne))

end
end Verif
