import Verif.Lemmas.RungeKutta
import Verif.Spec.Midpoint

/-! `modified_midpoint` and `extrapolation_stepper` implement their recipes. -/

set_option linter.unusedSectionVars false

namespace Verif
variable {K V W : Type} [Add K] [Sub K] [Mul K] [Div K] [IntCast K] [Neg K] [StateOps K V]

theorem ne_priv {l : Loc} {o : Owner} {os : List Owner} (h : ¬ l.ownedBy os) (ho : o ∈ os) (i : ℕ) :
    l ≠ .priv o i := by
  rintro rfl; exact h ho

theorem midp_owned (i : ℕ) : (Loc.priv .midp i).ownedBy [.midp] := by simp [Loc.ownedBy]

theorem Implements.swap {α : Type} {os : List Owner} {h : Heap K V W} {p : Unit → StepM K V W Unit}
    {spec : M W α} {outs : α → List (Loc × V)} {exc : List Loc} {a b c : Loc} {f1 f2 : K} {v u : V}
    (ha : a.ownedBy os) (hb : b.ownedBy os)
    (hv : lin [(f1, h.state b), (f2, h.state c)] = v) (hu : h.state a = u)
    (H : Implements os ((h.set a v).set b u) (p ()) spec outs exc) :
    Implements os h (linSwap a b c f1 f2 >>= p) spec outs exc := by
  have : Implements os h (linSwap a b c f1 f2) (pure () : M W Unit) (fun _ => [(a, v), (b, u)]) exc := by
    refine ⟨(h.set a v).set b u, ?_, rfl, fun l _ => ⟨rfl, rfl, rfl, rfl⟩⟩
    simp only [linSwap, hv, hu]
  have e : spec = ((pure () : M W Unit) >>= fun _ => spec) := by simp
  rw [e]
  refine Implements.call this (fun o ho => ho) (fun l hl => Or.inr hl) (fun _ d hd => ?_)
    fun _ h' hw hp _ => ?_
  · simp only [List.map_cons, List.map_nil, List.mem_cons, List.not_mem_nil, or_false] at hd
    rcases hd with rfl | rfl
    · exact Or.inl ha
    · exact Or.inl hb
  · have : h' = (h.set a v).set b u := by
      simp only [linSwap, hv, hu, Res.ok.injEq, true_and] at hp; exact hp.symm
    subst this
    exact H

theorem midpointLoop_implements {α : Type} (sys : Sys K V W) (hh : K) (q : Unit → StepM K V W Unit)
    (spec : V × V × V → M W α) (outs : α → List (Loc × V)) (exc : List Loc) (x0 : ℕ) :
    ∀ (n : ℕ) (th : K) (a b d : V) (h : Heap K V W), h.state mpX0 = a → h.state mpX1 = b → h.state mpDxdt = d →
    (∀ a b d h', h'.state mpX0 = a → h'.state mpX1 = b → h'.state mpDxdt = d →
      Implements [.midp] h' (q ()) (spec (a, b, d)) outs exc) →
    Implements [.midp] h (midpointLoop sys hh (lit 2 * hh) n th >>= q) (leapFrog sys hh n th a b d >>= spec)
      outs exc := by
  intro n
  induction n with
  | zero =>
    intro th a b d h h1 h2 h3 H
    simp only [midpointLoop, leapFrog, pure_bind]
    exact H a b d h h1 h2 h3
  | succ n ih =>
    intro th a b d h h1 h2 h3 H
    simp only [midpointLoop, leapFrog, bind_assoc]
    refine Implements.swap (midp_owned _) (midp_owned _) (v := lin [(lit 1, a), (lit 2 * hh, d)]) (u := b)
      (by rw [h1, h3]) h2 ?_
    refine Implements.sys (midp_owned _) (x := lin [(lit 1, a), (lit 2 * hh, d)]) ?_ fun k w => ?_
    · simp [Heap.set_state_apply, mpX1, mpX0]
    · refine ih (th + hh) b _ k _ ?_ ?_ ?_ H
      · simp [Heap.set_state_apply, Heap.put_state_apply, mpX0, mpDxdt]
      · simp [Heap.set_state_apply, Heap.put_state_apply, mpX0, mpX1, mpDxdt]
      · simp [Heap.put_state_apply]

/-- What `modified_midpoint` does, whatever the aliasing of its arguments. -/
theorem midpoint_implements (m : ℕ) (hm : 1 ≤ m) (hm' : m < 65536) (sys : Sys K V W) (inp dxdt out : Loc) (t dt : K)
    (h : Heap K V W) (hinp : ¬ inp.ownedBy [.midp]) :
    Implements [.midp] h (midpointImpl m sys inp dxdt t out dt)
      (midpointStep m sys (h.state inp) (h.state dxdt) t dt) (fun v => [(out, v)]) [] := by
  have h1 := fun i => ne_priv hinp (List.mem_singleton.2 rfl) i
  have e : (m + 65535) % 65536 = m - 1 := by omega
  unfold midpointImpl midpointStep
  simp only [e]
  refine Implements.store (midp_owned _) rfl ?_
  refine Implements.sys (midp_owned _) (by simp) fun k w => ?_
  refine Implements.copy (midp_owned _) (v := h.state inp) ?_ ?_
  · simp [Heap.set_state_apply, Heap.put_state_apply, mpX1, mpDxdt, h1]
  refine midpointLoop_implements sys _ _ _ _ _ 0 (m - 1) _ _ _ _ _ ?_ ?_ ?_ ?_
  · simp
  · simp [Heap.set_state_apply, Heap.put_state_apply, mpX1, mpX0, mpDxdt]
  · simp [Heap.set_state_apply, Heap.put_state_apply, mpX0, mpDxdt]
  · intro a b d h' h1 h2 h3
    exact Implements.out (by simp [h1, h2, h3])

/-! ## Extrapolation -/

theorem neville_congr (c : ℕ → ℕ → K) (y y' : ℕ → V) : ∀ d k, (∀ i ≤ k, y i = y' i) →
    neville c y d k = neville c y' d k
  | 0, k, h => h k le_rfl
  | d + 1, k, h => by
    simp only [neville, neville_congr c y y' d k h,
      neville_congr c y y' d (k - 1) fun i hi => h i (by omega)]

theorem exTable_ne {i j : ℕ} (h : i ≠ j) : exTable i ≠ exTable j := by
  simp only [exTable, ne_eq, Loc.priv.injEq, true_and]; omega

/-- The loop of `extrapolate`: from column `k` down. -/
theorem extrapolateLoop_eval (k : ℕ) (y : ℕ → V) : ∀ (n : ℕ) (h : Heap K V W), n < k →
    h.state (exTable n) = neville (exCoeff (K := K)) y (k - (n + 1)) k →
    (∀ i, i < n → h.state (exTable i) = neville (exCoeff (K := K)) y (k - 1 - (i + 1)) (k - 1)) →
    ∃ h', extrapolateLoop k n h = .ok () h' ∧ h'.world = h.world ∧
      (∀ i, i ≤ n → h'.state (exTable i) = neville (exCoeff (K := K)) y (k - (i + 1)) k) ∧
      (∀ l, (∀ i, i < n → l ≠ exTable i) → h.SameAt h' l) ∧
      (h'.num = h.num ∧ h'.flag = h.flag ∧ h'.nat = h.nat) := by
  intro n
  induction n with
  | zero =>
    intro h hk h1 h2
    refine ⟨h, rfl, rfl, fun i hi => ?_, fun l _ => Heap.SameAt.refl _ _, rfl, rfl, rfl⟩
    obtain rfl : i = 0 := by omega
    exact h1
  | succ n ih =>
    intro h hk h1 h2
    have e1 : lin [((lit 1 + exCoeff k (n + 1) : K), h.state (exTable (n + 1))),
        (-exCoeff k (n + 1), h.state (exTable n))] = neville (exCoeff (K := K)) y (k - (n + 1)) k := by
      rw [h1, h2 n (by omega)]
      obtain ⟨d, hd⟩ : ∃ d, k = n + 2 + d := ⟨k - (n + 2), by omega⟩
      subst hd
      have a1 : n + 2 + d - (n + 1) = d + 1 := by omega
      have a2 : n + 2 + d - (n + 1 + 1) = d := by omega
      have a3 : n + 2 + d - 1 - (n + 1) = d := by omega
      have a4 : n + 2 + d - (d + 1) = n + 1 := by omega
      rw [a1, a2, a3, neville, a4]
    obtain ⟨h', i1, i2, i3, i4, i5⟩ := ih (h.set (exTable n) (neville (exCoeff (K := K)) y (k - (n + 1)) k)) (by omega)
      (by simp) (fun i hi => by
        rw [Heap.set_state_ne _ _ (exTable_ne (by omega : i ≠ n)), h2 i (by omega)])
    refine ⟨h', ?_, i2, fun i hi => ?_, fun l hl => ?_, i5⟩
    · simp only [extrapolateLoop]
      rw [M.bind_apply]
      simp only [linTo, List.map_cons, List.map_nil, e1]
      exact i1
    · rcases Nat.lt_or_ge n i with hlt | hge
      · obtain rfl : i = n + 1 := by omega
        rw [(i4 (exTable (n + 1)) fun j hj => exTable_ne (by omega)).1,
          Heap.set_state_ne _ _ (exTable_ne (by omega)), h1]
      · exact i3 i hge
    · exact (Heap.SameAt.set_ne _ _ (hl n (by omega))).trans (i4 l fun i hi => hl i (by omega))

theorem extrapolate_eval (k : ℕ) (hk : 1 ≤ k) (y : ℕ → V) (out : Loc) (hne : ∀ i, out ≠ exTable i)
    (h : Heap K V W) (h0 : h.state out = neville (exCoeff (K := K)) y (k - 1) (k - 1))
    (h1 : h.state (exTable (k - 1)) = y k)
    (h2 : ∀ i, i < k - 1 → h.state (exTable i) = neville (exCoeff (K := K)) y (k - 1 - (i + 1)) (k - 1)) :
    ∃ h', extrapolate k out h = .ok () h' ∧ h'.world = h.world ∧
      h'.state out = neville (exCoeff (K := K)) y k k ∧
      (∀ i, i < k → h'.state (exTable i) = neville (exCoeff (K := K)) y (k - (i + 1)) k) ∧
      (∀ l, l ≠ out → ¬ l.ownedBy [.midp, .extrap] → h.SameAt h' l) ∧
      (h'.num = h.num ∧ h'.flag = h.flag ∧ h'.nat = h.nat) := by
  obtain ⟨h', i1, i2, i3, i4, i5⟩ := extrapolateLoop_eval k y (k - 1) h (by omega)
    (by rw [h1, show k - (k - 1 + 1) = 0 by omega]; rfl) h2
  have e0 : h'.state out = neville (exCoeff (K := K)) y (k - 1) (k - 1) := by
    rw [(i4 out fun i _ => hne _).1, h0]
  have e1 := i3 0 (by omega)
  have e2 : lin [((lit 1 + exCoeff k 0 : K), h'.state (exTable 0)), (-exCoeff k 0, h'.state out)] =
      neville (exCoeff (K := K)) y k k := by
    rw [e0, e1]
    obtain ⟨d, rfl⟩ : ∃ d, k = d + 1 := ⟨k - 1, by omega⟩
    simp [neville]
  refine ⟨h'.set out (neville (exCoeff (K := K)) y k k), ?_, i2, by simp, fun i hi => ?_, fun l hl ho => ?_, i5⟩
  · simp only [extrapolate]
    rw [M.bind_ok i1]
    simp only [linTo, List.map_cons, List.map_nil, e2]
  · rw [Heap.set_state_ne _ _ (hne i).symm, i3 i (by omega)]
  · exact (i4 l fun i _ => ne_priv ho (by simp) _).trans (Heap.SameAt.set_ne _ _ hl)

theorem exTable_not_midp (i : ℕ) : ¬ (exTable i).ownedBy [.midp] := by simp [exTable, Loc.ownedBy]

theorem extrapolationLoop_implements {α : Type} (sys : Sys K V W) (inp dxdt out : Loc) (t dt : K)
    (hinp : ¬ inp.ownedBy [.midp, .extrap]) (hdxdt : ¬ dxdt.ownedBy [.midp, .extrap])
    (hout : ¬ out.ownedBy [.midp]) (hoe : ∀ i, out ≠ exTable i) (hio : inp ≠ out) (hdo : dxdt ≠ out) (x k1 : V)
    (q : Unit → StepM K V W Unit) (spec : (ℕ → V) → M W α) (outs : α → List (Loc × V)) (exc : List Loc)
    (hvis : out.ownedBy [.midp, .extrap] ∨ (out ∈ exc ∧ ∀ a, out ∈ (outs a).map Prod.fst)) :
    ∀ (n k : ℕ) (ys : ℕ → V) (h : Heap K V W), 1 ≤ k → k + n < 32768 →
    h.state inp = x → h.state dxdt = k1 → h.state out = neville (exCoeff (K := K)) ys (k - 1) (k - 1) →
    (∀ i, i < k - 1 → h.state (exTable i) = neville (exCoeff (K := K)) ys (k - 1 - (i + 1)) (k - 1)) →
    (∀ ys h', h'.state out = neville (exCoeff (K := K)) ys (k + n - 1) (k + n - 1) →
      (∀ i, i < k + n - 1 → h'.state (exTable i) = neville (exCoeff (K := K)) ys (k + n - 1 - (i + 1)) (k + n - 1)) →
      Implements [.midp, .extrap] h' (q ()) (spec ys) outs exc) →
    Implements [.midp, .extrap] h (extrapolationLoop sys inp dxdt t out dt n k >>= q)
      (midpointResults sys x k1 t dt n k ys >>= spec) outs exc := by
  intro n
  induction n with
  | zero =>
    intro k ys h hk _ hx hd h0 h1 H
    simp only [extrapolationLoop, midpointResults, pure_bind]
    exact H ys h h0 h1
  | succ n ih =>
    intro k ys h hk hkn hx hd h0 h1 H
    simp only [extrapolationLoop, midpointResults, bind_assoc]
    have sub : ∀ l : Loc, ¬ l.ownedBy [.midp, .extrap] → ¬ l.ownedBy [.midp] := by
      intro l hl hl'
      cases l with
      | user n => exact hl'
      | priv o i => exact hl (by simp only [Loc.ownedBy, List.mem_singleton] at hl'; simp [Loc.ownedBy, hl'])
    have hm := midpoint_implements (interval k) (by unfold interval; omega) (by unfold interval; omega) sys inp dxdt
      (exTable (k - 1)) t dt h (sub _ hinp)
    rw [hx, hd] at hm
    refine Implements.call hm (by simp) (by simp)
      (fun a d hd => Or.inl (by simp only [List.map_cons, List.map_nil, List.mem_singleton] at hd; simp [hd, exTable, Loc.ownedBy]))
      fun y h₁ hs hp hf => ?_
    have f1 : ∀ l, ¬ l.ownedBy [.midp] → l ≠ exTable (k - 1) → h.SameAt h₁ l := by
      intro l hl hne
      refine Heap.SameAt.trans ?_ (hf l hl)
      exact Heap.SameAt.set_ne _ _ hne
    have f2 : h₁.state (exTable (k - 1)) = y := by
      rw [(hf (exTable (k - 1)) (exTable_not_midp _)).1]; simp
    have upd : ∀ d j, j < k → neville (exCoeff (K := K)) (Function.update ys k y) d j = neville (exCoeff (K := K)) ys d j := by
      intro d j hj
      apply neville_congr
      intro i hi
      rw [Function.update_of_ne (by omega)]
    obtain ⟨h₂, g1, g2, g3, g4, g5, g6, g7, g8⟩ := extrapolate_eval k hk (Function.update ys k y) out hoe h₁
      (by rw [upd _ _ (by omega), (f1 out hout (hoe _)).1, h0])
      (by rw [f2, Function.update_self])
      (fun i hi => by
        rw [upd _ _ (by omega), (f1 (exTable i) (exTable_not_midp i) (exTable_ne (by omega))).1, h1 i hi])
    have hE : Implements [.midp, .extrap] h₁ (extrapolate k out) (pure () : M W Unit)
        (fun _ => [(out, neville (exCoeff (K := K)) (Function.update ys k y) k k)]) exc := by
      refine ⟨h₂, g1, g2, fun l hl => ?_⟩
      by_cases hlo : l = out
      · subst hlo
        refine ⟨by simp [g3], ?_⟩
        obtain ⟨r1, r2, r3, -⟩ := Heap.setAll_rest h₁ [(l, neville (exCoeff (K := K)) (Function.update ys k y) k k)]
        rw [r1, r2, r3, g6, g7, g8]
        exact ⟨rfl, rfl, rfl⟩
      · refine Heap.SameAt.trans ?_ (g5 l hlo hl)
        obtain ⟨r1, r2, r3, -⟩ := Heap.setAll_rest h₁ [(out, neville (exCoeff (K := K)) (Function.update ys k y) k k)]
        exact ⟨(Heap.set_state_ne _ _ hlo).symm, by rw [r1], by rw [r2], by rw [r3]⟩
    have e : ∀ (s : M W α), s = ((pure () : M W Unit) >>= fun _ => s) := by simp
    rw [e (midpointResults sys x k1 t dt n (k + 1) (Function.update ys k y) >>= spec)]
    refine Implements.call hE (fun o ho => ho) (fun l hl => Or.inr hl)
      (fun _ d hd => by
        simp only [List.map_cons, List.map_nil, List.mem_singleton] at hd
        subst hd; exact hvis) fun _ h' hw hp' _ => ?_
    obtain rfl : h' = h₂ := by
      rw [g1] at hp'; simp only [Res.ok.injEq, true_and] at hp'; exact hp'.symm
    refine ih (k + 1) (Function.update ys k y) h' (by omega) (by omega) ?_ ?_ g3 (fun i hi => g4 i (by omega)) ?_
    · rw [(g5 inp hio hinp).1, (f1 inp (sub _ hinp) (ne_priv hinp (by simp) _)).1, hx]
    · rw [(g5 dxdt hdo hdxdt).1, (f1 dxdt (sub _ hdxdt) (ne_priv hdxdt (by simp) _)).1, hd]
    · intro ys' h'' a1 a2
      have en : k + (n + 1) - 1 = k + 1 + n - 1 := by omega
      exact H ys' h'' (by rw [en]; exact a1) (fun i hi => by rw [en] at hi ⊢; exact a2 i hi)

theorem not_midp {l : Loc} (hl : ¬ l.ownedBy [.midp, .extrap]) : ¬ l.ownedBy [.midp] := by
  intro hl'
  cases l with
  | user n => exact hl'
  | priv o i => exact hl (by simp only [Loc.ownedBy, List.mem_singleton] at hl'; simp [Loc.ownedBy, hl'])

theorem extrapolation_cont {α : Type} (kmax : ℕ) (hkm : kmax < 32767) (sys : Sys K V W) (inp dxdt out : Loc) (t dt : K)
    (h : Heap K V W) (hinp : ¬ inp.ownedBy [.midp, .extrap]) (hdxdt : ¬ dxdt.ownedBy [.midp, .extrap])
    (hout : ¬ out.ownedBy [.midp]) (hoe : ∀ i, out ≠ exTable i) (hio : inp ≠ out) (hdo : dxdt ≠ out)
    (q : Unit → StepM K V W Unit) (spec : (ℕ → V) → M W α) (outs : α → List (Loc × V)) (exc : List Loc)
    (hvis : out.ownedBy [.midp, .extrap] ∨ (out ∈ exc ∧ ∀ a, out ∈ (outs a).map Prod.fst))
    (H : ∀ ys h', h'.state out = neville (exCoeff (K := K)) ys kmax kmax →
      (∀ i, i < kmax → h'.state (exTable i) = neville (exCoeff (K := K)) ys (kmax - (i + 1)) kmax) →
      Implements [.midp, .extrap] h' (q ()) (spec ys) outs exc) :
    Implements [.midp, .extrap] h (extrapolationImpl kmax sys inp dxdt t out dt >>= q)
      (extrapolationResults kmax sys (h.state inp) (h.state dxdt) t dt >>= spec) outs exc := by
  simp only [extrapolationImpl, extrapolationResults, bind_assoc]
  have hm := midpoint_implements (interval 0) (by unfold interval; omega) (by unfold interval; omega) sys inp dxdt
    out t dt h (not_midp hinp)
  refine Implements.call hm (by simp) (by simp) (fun a d hd => by
      simp only [List.map_cons, List.map_nil, List.mem_singleton] at hd
      subst hd; exact hvis) fun y h₁ hs hp hf => ?_
  refine extrapolationLoop_implements sys inp dxdt out t dt hinp hdxdt hout hoe hio hdo _ _ q spec outs exc hvis
    kmax 1 _ h₁ le_rfl (by omega) ?_ ?_ ?_ (fun i hi => absurd hi (by omega)) ?_
  · rw [(hf inp (not_midp hinp)).1]; exact Heap.set_state_ne _ _ hio
  · rw [(hf dxdt (not_midp hdxdt)).1]; exact Heap.set_state_ne _ _ hdo
  · rw [(hf out hout).1]; simp [neville]
  · intro ys h' a1 a2
    rw [show 1 + kmax - 1 = kmax by omega] at a1 a2
    exact H ys h' a1 a2

/-- What `extrapolation_stepper` does when its output is neither its input nor the derivative. -/
theorem extrapolation_implements (kmax : ℕ) (hkm : kmax < 32767) (sys : Sys K V W) (inp dxdt out : Loc) (t dt : K)
    (h : Heap K V W) (hinp : ¬ inp.ownedBy [.midp, .extrap]) (hdxdt : ¬ dxdt.ownedBy [.midp, .extrap])
    (hout : ¬ out.ownedBy [.midp, .extrap]) (hio : inp ≠ out) (hdo : dxdt ≠ out) :
    Implements [.midp, .extrap] h (extrapolationImpl kmax sys inp dxdt t out dt)
      (extrapolationStep kmax sys (h.state inp) (h.state dxdt) t dt) (fun v => [(out, v)]) [out] := by
  rw [← bind_pure (extrapolationImpl kmax sys inp dxdt t out dt)]
  refine extrapolation_cont kmax hkm sys inp dxdt out t dt h hinp hdxdt (not_midp hout)
    (fun i => ne_priv hout (by simp) _) hio hdo _ _ _ _ (Or.inr ⟨by simp, by simp⟩)
    fun ys h' h1 _ => Implements.ret fun l _ => ⟨?_, rfl, rfl, rfl⟩
  rw [← h1]
  simp only [Heap.setAll_cons, Heap.setAll_nil, Heap.set_state_apply]
  split
  · subst l; rfl
  · rfl

theorem extrapolationErr_implements (kmax : ℕ) (hk : 1 ≤ kmax) (hkm : kmax < 32767) (sys : Sys K V W) (inp dxdt out xerr : Loc)
    (t dt : K) (h : Heap K V W) (hinp : ¬ inp.ownedBy [.midp, .extrap]) (hdxdt : ¬ dxdt.ownedBy [.midp, .extrap])
    (hout : ¬ out.ownedBy [.midp, .extrap]) (hio : inp ≠ out) (hdo : dxdt ≠ out) :
    Implements [.midp, .extrap] h (extrapolationErrImpl kmax sys inp dxdt t out dt xerr)
      (extrapolationErrStep kmax sys (h.state inp) (h.state dxdt) t dt) (fun r => [(out, r.1), (xerr, r.2)]) [out] := by
  refine extrapolation_cont kmax hkm sys inp dxdt out t dt h hinp hdxdt (not_midp hout)
    (fun i => ne_priv hout (by simp) _) hio hdo _ _ _ _ (Or.inr ⟨by simp, by simp⟩)
    fun ys h' h1 h2 => Implements.lastStore
      (v := lin [((lit 1 : K), neville (exCoeff (K := K)) ys kmax kmax), (-lit 1, neville (exCoeff (K := K)) ys (kmax - 1) kmax)])
      ?_ fun l _ => ⟨?_, rfl, rfl, rfl⟩
  · have := h2 0 (by omega)
    simp only [List.map_cons, List.map_nil, h1, this]
  · simp only [Heap.setAll_cons, Heap.setAll_nil, Heap.set_state_apply]
    split
    · rfl
    · split
      · subst l; exact h1
      · rfl

/-- `do_step_impl_io`: in place, through the private copy. -/
theorem extrapolationIo_implements (kmax : ℕ) (hkm : kmax < 32767) (sys : Sys K V W) (x dxdt : Loc) (t dt : K)
    (h : Heap K V W) (hx : ¬ x.ownedBy [.midp, .extrap]) (hdxdt : ¬ dxdt.ownedBy [.midp, .extrap]) :
    Implements [.midp, .extrap] h (extrapolationIo kmax sys x dxdt t dt)
      (extrapolationStep kmax sys (h.state x) (h.state dxdt) t dt) (fun v => [(x, v)]) [] := by
  refine extrapolation_cont kmax hkm sys x dxdt exXout t dt h hx hdxdt (by simp [exXout, Loc.ownedBy])
    (fun i => by simp [exXout, exTable]) (ne_priv hx (by simp) _) (ne_priv hdxdt (by simp) _) _ _ _ _
    (Or.inl (by simp [exXout, Loc.ownedBy])) fun ys h' h1 _ => ?_
  refine ⟨h'.set x (h'.state exXout), rfl, rfl, fun l _ => ?_⟩
  rw [h1]
  exact ⟨rfl, rfl, rfl, rfl⟩

end Verif
