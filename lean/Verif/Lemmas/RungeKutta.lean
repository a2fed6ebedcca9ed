import Verif.Lemmas.Steps
import Verif.Spec.RungeKutta
import Verif.Model.Steppers

/-! Each `do_step_impl` implements its recipe, whatever the aliasing of input and output. -/

set_option linter.unusedSectionVars false

namespace Verif
variable {K V W : Type} [Add K] [Sub K] [Mul K] [Div K] [IntCast K] [StateOps K V]

theorem ne_rk {l : Loc} (h : ¬ l.ownedBy [.rk]) (i : ℕ) : l ≠ .priv .rk i := by
  rintro rfl; exact h (by simp [Loc.ownedBy])

theorem rk_owned (i : ℕ) : (Loc.priv .rk i).ownedBy [.rk] := by simp [Loc.ownedBy]

theorem euler_implements (sys : Sys K V W) (inp dxdt out : Loc) (t dt : K) (h : Heap K V W) :
    Implements [.rk] h (eulerImpl sys inp dxdt t out dt)
      (eulerStep sys (h.state inp) (h.state dxdt) t dt) (fun v => [(out, v)]) [] :=
  Implements.out rfl

/-- discharges a lookup in a heap after a sequence of stores -/
macro "lookup" : tactic =>
  `(tactic| (simp only [List.map, Heap.set_state_apply, Heap.put_state_apply, mXTmp, mK, mF, mDxt, mDxm, mDxh, mDxdtTmp, mDxdt,
      Loc.priv.injEq, reduceCtorEq, and_true, true_and, and_false, false_and, if_true, if_false, *,
      ↓reduceIte, Nat.reduceAdd, Nat.reduceEqDiff, OfNat.ofNat_ne_zero, OfNat.ofNat_ne_one, OfNat.one_ne_ofNat, OfNat.zero_ne_ofNat, one_ne_zero, zero_ne_one, ne_eq, not_false_eq_true]))

theorem rk4Classic_implements (sys : Sys K V W) (inp dxdt out : Loc) (t dt : K) (h : Heap K V W)
    (hinp : ¬ inp.ownedBy [.rk]) (hdxdt : ¬ dxdt.ownedBy [.rk]) :
    Implements [.rk] h (rk4ClassicImpl sys inp dxdt t out dt)
      (rk4ClassicStep sys (h.state inp) (h.state dxdt) t dt) (fun v => [(out, v)]) [] := by
  have h1 := ne_rk hinp
  have h2 := ne_rk hdxdt
  unfold rk4ClassicImpl rk4ClassicStep
  refine Implements.store (rk_owned _) rfl ?_
  refine Implements.sys (rk_owned _) (by lookup) fun k2 w => ?_
  refine Implements.store (rk_owned _) rfl ?_
  refine Implements.sys (rk_owned _) (by lookup) fun k3 w => ?_
  refine Implements.store (rk_owned _) rfl ?_
  refine Implements.sys (rk_owned _) (by lookup) fun k4 w => ?_
  exact Implements.out (by lookup)

theorem cashKarpClassic_implements (sys : Sys K V W) (inp dxdt out : Loc) (t dt : K) (h : Heap K V W)
    (hinp : ¬ inp.ownedBy [.rk]) (hdxdt : ¬ dxdt.ownedBy [.rk]) :
    Implements [.rk] h (cashKarpClassicImpl sys inp dxdt t out dt)
      (cashKarpClassicStep sys (h.state inp) (h.state dxdt) t dt) (fun v => [(out, v)]) [] := by
  have h1 := ne_rk hinp
  have h2 := ne_rk hdxdt
  unfold cashKarpClassicImpl cashKarpClassicStep cashKarpClassicStages
  simp only [bind_assoc, pure_bind]
  refine Implements.store (rk_owned _) rfl ?_
  refine Implements.sys (rk_owned _) (by lookup) fun k2 w => ?_
  refine Implements.store (rk_owned _) rfl ?_
  refine Implements.sys (rk_owned _) (by lookup) fun k3 w => ?_
  refine Implements.store (rk_owned _) rfl ?_
  refine Implements.sys (rk_owned _) (by lookup) fun k4 w => ?_
  refine Implements.store (rk_owned _) rfl ?_
  refine Implements.sys (rk_owned _) (by lookup) fun k5 w => ?_
  refine Implements.store (rk_owned _) rfl ?_
  refine Implements.sys (rk_owned _) (by lookup) fun k6 w => ?_
  exact Implements.out (by lookup)

theorem cashKarpClassicErr_implements (sys : Sys K V W) (inp dxdt out xerr : Loc) (t dt : K) (h : Heap K V W)
    (hinp : ¬ inp.ownedBy [.rk]) (hdxdt : ¬ dxdt.ownedBy [.rk]) (hout : ¬ out.ownedBy [.rk])
    (hod : dxdt ≠ out) :
    Implements [.rk] h (cashKarpClassicErrImpl sys inp dxdt t out dt xerr)
      (cashKarpClassicErrStep sys (h.state inp) (h.state dxdt) t dt)
      (fun r => [(out, r.1), (xerr, r.2)]) [] := by
  have h1 := ne_rk hinp
  have h2 := ne_rk hdxdt
  have h3 := fun i => (ne_rk hout i).symm
  unfold cashKarpClassicErrImpl cashKarpClassicImpl cashKarpClassicErrStep cashKarpClassicStages
  simp only [bind_assoc, pure_bind]
  refine Implements.store (rk_owned _) rfl ?_
  refine Implements.sys (rk_owned _) (by lookup) fun k2 w => ?_
  refine Implements.store (rk_owned _) rfl ?_
  refine Implements.sys (rk_owned _) (by lookup) fun k3 w => ?_
  refine Implements.store (rk_owned _) rfl ?_
  refine Implements.sys (rk_owned _) (by lookup) fun k4 w => ?_
  refine Implements.store (rk_owned _) rfl ?_
  refine Implements.sys (rk_owned _) (by lookup) fun k5 w => ?_
  refine Implements.store (rk_owned _) rfl ?_
  refine Implements.sys (rk_owned _) (by lookup) fun k6 w => ?_
  exact Implements.out2 (by lookup) (by lookup)

/-! ## The generic algorithm -/

theorem map_zip_state (h : Heap K V W) (r : List K) (ls : List Loc) :
    (r.zip ls).map (fun q => (q.1, h.state q.2)) = r.zip (ls.map h.state) := by
  rw [List.zip_map_right]; rfl

theorem stageArgs_succ (dxdt : Loc) (n : ℕ) (hn : 2 ≤ n) :
    stageArgs dxdt n = stageArgs dxdt (n - 1) ++ [mF (n - 2)] := by
  obtain ⟨m, rfl⟩ : ∃ m, n = m + 2 := ⟨n - 2, by omega⟩
  simp [stageArgs, List.range_succ]

theorem stageArgs_frame {h : Heap K V W} {dxdt : Loc} (hd : ¬ dxdt.ownedBy [.rk]) (n j : ℕ) (v : V)
    (hj : n ≤ j + 1) (w : W) :
    (stageArgs dxdt n).map (h.put (mF j) v w).state =
      (stageArgs dxdt n).map h.state := by
  apply List.map_congr_left
  intro l hl
  simp only [stageArgs, List.mem_cons, List.mem_map, List.mem_range] at hl
  apply Heap.put_state_ne
  rcases hl with rfl | ⟨i, hi, rfl⟩
  · exact ne_rk hd _
  · simp only [mF, ne_eq, Loc.priv.injEq, true_and]; omega

theorem stageArgs_xtmp {h : Heap K V W} {dxdt : Loc} (hd : ¬ dxdt.ownedBy [.rk]) (n : ℕ) (v : V) :
    (stageArgs dxdt n).map (h.set mXTmp v).state = (stageArgs dxdt n).map h.state := by
  apply List.map_congr_left
  intro l hl
  simp only [stageArgs, List.mem_cons, List.mem_map, List.mem_range] at hl
  apply Heap.set_state_ne
  rcases hl with rfl | ⟨i, hi, rfl⟩
  · exact ne_rk hd _
  · simp [mF, mXTmp]

/-- The loop over the stages after the first one, followed by `q`. -/
theorem runStages_implements {α : Type} (sys : Sys K V W) (inp dxdt out : Loc) (t dt : K) (b : List K)
    (hinp : ¬ inp.ownedBy [.rk]) (hdxdt : ¬ dxdt.ownedBy [.rk]) (count : ℕ) (x k1 : V)
    (q : Unit → StepM K V W Unit) (spec : List V → M W α) (outs : α → List (Loc × V)) (exc : List Loc)
    (H : ∀ (ks : List V) (h : Heap K V W), ks.length = count → (stageArgs dxdt count).map h.state = ks →
      h.state inp = x → h.state dxdt = k1 →
      Implements [.rk] h (linTo out ((lit 1, inp) :: (b.map (· * dt)).zip (stageArgs dxdt count)) >>= q)
        (spec ks) outs exc) :
    ∀ (as : List (List K)) (a : List K) (cs : List K) (n : ℕ) (ks : List V) (h : Heap K V W),
      cs.length = as.length + 1 → 2 ≤ n → n + as.length = count → ks.length = n - 1 →
      (stageArgs dxdt (n - 1)).map h.state = ks →
      h.state inp = x → h.state dxdt = k1 →
      h.state mXTmp = lin ((lit 1, x) :: (a.map (· * dt)).zip ks) →
      Implements [.rk] h (runStages sys count inp dxdt t out dt n (cs.zip (as ++ [b])) >>= q)
        (rkStages sys x t dt (cs.zip (a :: as)) ks >>= spec) outs exc := by
  intro as
  induction as with
  | nil =>
    intro a cs n ks h hlen hn hc hkl hks hx hk1 ht
    obtain ⟨c, rfl⟩ : ∃ c, cs = [c] := by
      match cs, hlen with | [c], _ => exact ⟨c, rfl⟩
    simp only [List.length_nil, Nat.add_zero] at hc
    have hcond : n > 1 := by omega
    have hnc : ¬ n < count := by omega
    simp only [List.nil_append, List.zip_cons_cons, List.zip_nil_right, runStages, calculateStage, rkStages,
      hcond, hnc, if_true, if_false, bind_assoc, pure_bind]
    refine Implements.sys (rk_owned _) ht fun k w => ?_
    have e2 : (h.put (mF (n-2)) k w).state (mF (n-2)) = k := Heap.put_state_self _ _ _ _
    subst hc
    refine H _ _ (by simp; omega) ?_ ?_ ?_
    · rw [stageArgs_succ dxdt n hn, List.map_append,
        stageArgs_frame hdxdt (n-1) (n-2) k (by omega) w, hks]
      simp only [e2, List.map_cons, List.map_nil]
    · rw [← hx]; exact Heap.put_state_ne _ _ _ (ne_rk hinp _)
    · rw [← hk1]; exact Heap.put_state_ne _ _ _ (ne_rk hdxdt _)
  | cons a' as ih =>
    intro a cs n ks h hlen hn hc hkl hks hx hk1 ht
    obtain ⟨c, cs, rfl⟩ : ∃ c cs', cs = c :: cs' := by
      match cs, hlen with | c :: cs, _ => exact ⟨c, cs, rfl⟩
    simp only [List.length_cons] at hc hlen
    have hcond : n > 1 := by omega
    have hnc : n < count := by omega
    simp only [List.cons_append, List.zip_cons_cons, runStages, calculateStage, rkStages,
      hcond, hnc, if_true, bind_assoc, pure_bind]
    refine Implements.sys (rk_owned _) ht fun k w => ?_
    have e : (h.put (mF (n-2)) k w).state inp = x := by
      rw [← hx]; exact Heap.put_state_ne _ _ _ (ne_rk hinp _)
    have e1 : (h.put (mF (n-2)) k w).state dxdt = k1 := by
      rw [← hk1]; exact Heap.put_state_ne _ _ _ (ne_rk hdxdt _)
    have e2 : (h.put (mF (n-2)) k w).state (mF (n-2)) = k :=
      Heap.put_state_self _ _ _ _
    have e3 : (stageArgs dxdt n).map (h.put (mF (n-2)) k w).state =
        ks ++ [k] := by
      rw [stageArgs_succ dxdt n hn, List.map_append,
        stageArgs_frame hdxdt (n-1) (n-2) k (by omega) w, hks]
      simp only [e2, List.map_cons, List.map_nil]
    refine Implements.store (rk_owned _) (v := lin ((lit 1, x) :: (a'.map (· * dt)).zip (ks ++ [k]))) ?_ ?_
    · rw [List.map_cons, map_zip_state, e3]; simp only [e]
    · apply ih a' cs (n + 1) (ks ++ [k])
      · omega
      · omega
      · omega
      · simp; omega
      · rw [Nat.add_sub_cancel, stageArgs_xtmp hdxdt, e3]
      · rw [Heap.set_state_ne _ _ (show inp ≠ mXTmp from ne_rk hinp _), e]
      · rw [Heap.set_state_ne _ _ (show dxdt ≠ mXTmp from ne_rk hdxdt _), e1]
      · exact Heap.set_state_self _ _ _

theorem genericRk_cont {α : Type} (T : Tableau K) (hT : T.WellFormed) (sys : Sys K V W) (inp dxdt out : Loc)
    (t dt : K) (h : Heap K V W) (hinp : ¬ inp.ownedBy [.rk]) (hdxdt : ¬ dxdt.ownedBy [.rk])
    (q : Unit → StepM K V W Unit) (spec : List V → M W α) (outs : α → List (Loc × V)) (exc : List Loc)
    (H : ∀ (ks : List V) (h' : Heap K V W), ks.length = T.b.length →
      (stageArgs dxdt T.b.length).map h'.state = ks →
      h'.state inp = h.state inp → h'.state dxdt = h.state dxdt →
      Implements [.rk] h' (linTo out ((lit 1, inp) :: (T.b.map (· * dt)).zip (stageArgs dxdt T.b.length)) >>= q)
        (spec ks) outs exc) :
    Implements [.rk] h (genericRkImpl T sys inp dxdt t out dt >>= q)
      (rkAllStages T sys (h.state inp) (h.state dxdt) t dt >>= spec) outs exc := by
  obtain ⟨a, b, c⟩ := T
  obtain ⟨hc, hb, -⟩ := hT
  simp only at hc hb
  obtain ⟨c0, cs, rfl⟩ : ∃ c0 cs, c = c0 :: cs := by
    match c, hc with | c :: cs, _ => exact ⟨c, cs, rfl⟩
  simp only [genericRkImpl, Tableau.stages, rkAllStages, List.tail_cons]
  cases a with
  | nil =>
    simp only [List.length_nil, Nat.zero_add] at hb hc
    simp only [hb] at H
    simp only [List.nil_append, List.zip_cons_cons, List.zip_nil_right, runStages, calculateStage, hb,
      gt_iff_lt, Nat.lt_irrefl, if_false, pure_bind, rkStages, bind_assoc]
    refine H _ _ rfl ?_ rfl rfl
    simp [stageArgs]
  | cons a as =>
    simp only [List.length_cons] at hb hc
    simp only [List.cons_append, List.zip_cons_cons, runStages, calculateStage, hb, gt_iff_lt,
      Nat.lt_irrefl, if_false, pure_bind, bind_assoc, show 1 < as.length + 1 + 1 by omega, if_true]
    refine Implements.store (rk_owned _)
      (v := lin ((lit 1, h.state inp) :: (a.map (· * dt)).zip [h.state dxdt])) ?_ ?_
    · rw [List.map_cons, map_zip_state]; rfl
    · refine runStages_implements sys inp dxdt out t dt b hinp hdxdt (as.length + 1 + 1) (h.state inp)
        (h.state dxdt) q spec outs exc (fun ks h' i1 i2 i3 i4 => ?_) as a cs 2 [h.state dxdt] _ ?_ ?_ ?_ ?_ ?_ ?_ ?_ ?_
      · simp only at H; rw [hb] at H; exact H ks h' i1 i2 i3 i4
      · simpa using hc
      · omega
      · omega
      · rfl
      · simp [stageArgs, Heap.set_state_ne _ _ (show dxdt ≠ mXTmp from ne_rk hdxdt _)]
      · rw [Heap.set_state_ne _ _ (show inp ≠ mXTmp from ne_rk hinp _)]
      · rw [Heap.set_state_ne _ _ (show dxdt ≠ mXTmp from ne_rk hdxdt _)]
      · exact Heap.set_state_self _ _ _

theorem genericRk_implements (T : Tableau K) (hT : T.WellFormed) (sys : Sys K V W) (inp dxdt out : Loc)
    (t dt : K) (h : Heap K V W) (hinp : ¬ inp.ownedBy [.rk]) (hdxdt : ¬ dxdt.ownedBy [.rk]) :
    Implements [.rk] h (genericRkImpl T sys inp dxdt t out dt)
      (rkStep T sys (h.state inp) (h.state dxdt) t dt) (fun v => [(out, v)]) [] := by
  rw [← bind_pure (genericRkImpl T sys inp dxdt t out dt)]
  refine genericRk_cont T hT sys inp dxdt out t dt h hinp hdxdt _ _ _ _ fun ks h' _ hks hi _ => ?_
  rw [bind_pure]
  apply Implements.out
  rw [List.map_cons, map_zip_state, hks, hi]
  rfl

theorem genericErrRk_implements (T : Tableau K) (hT : T.WellFormed) (b2 : List K) (sys : Sys K V W)
    (inp dxdt out xerr : Loc) (t dt : K) (h : Heap K V W) (hinp : ¬ inp.ownedBy [.rk])
    (hdxdt : ¬ dxdt.ownedBy [.rk]) (hout : ¬ out.ownedBy [.rk]) (hod : dxdt ≠ out) :
    Implements [.rk] h (genericErrRkImpl T b2 sys inp dxdt t out dt xerr)
      (rkErrStep T b2 sys (h.state inp) (h.state dxdt) t dt)
      (fun r => [(out, r.1), (xerr, r.2)]) [] := by
  refine genericRk_cont T hT sys inp dxdt out t dt h hinp hdxdt _ _ _ _ fun ks h' _ hks hi _ => ?_
  apply Implements.out2
  · rw [List.map_cons, map_zip_state, hks, hi]
    rfl
  · rw [map_zip_state]
    congr 2
    rw [← hks]
    apply List.map_congr_left
    intro l hl
    simp only [stageArgs, List.mem_cons, List.mem_map, List.mem_range] at hl
    apply Heap.set_state_ne
    rcases hl with rfl | ⟨i, _, rfl⟩
    · exact hod
    · exact (ne_rk hout _).symm

/-! ## Dormand-Prince -/

theorem dopri5_cont {α : Type} (sys : Sys K V W) (inp dxdtIn out dxdtOut : Loc) (t dt : K)
    (h : Heap K V W) (hinp : ¬ inp.ownedBy [.rk]) (hd : ¬ dxdtIn.ownedBy [.rk])
    (hout : ¬ out.ownedBy [.rk]) (hdo : ¬ dxdtOut.ownedBy [.rk])
    (q : Unit → StepM K V W Unit) (spec : Dopri5Result V → M W α) (outs : α → List (Loc × V)) (exc : List Loc)
    (ho : out ∈ exc) (hdoe : dxdtOut ∈ exc) (houts : ∀ a, out ∈ (outs a).map Prod.fst)
    (houts' : ∀ a, dxdtOut ∈ (outs a).map Prod.fst)
    (H : ∀ (r : Dopri5Result V) (h' : Heap K V W), h'.state (mK 3) = r.k3 → h'.state (mK 4) = r.k4 →
      h'.state (mK 5) = r.k5 → h'.state (mK 6) = r.k6 →
      (out ≠ dxdtOut → h'.state out = r.x) → h'.state dxdtOut = r.k7 →
      (∀ l, l ≠ out → l ≠ dxdtOut → (¬ l.ownedBy [.rk] ∨ l = mDxdtTmp) → h.SameAt h' l) →
      Implements [.rk] h' (q ()) (spec r) outs exc) :
    Implements [.rk] h (dopri5Impl sys inp dxdtIn t out dxdtOut dt >>= q)
      (dopri5Step sys (h.state inp) (h.state dxdtIn) t dt >>= spec) outs exc := by
  have h1 := ne_rk hinp
  have h2 := ne_rk hd
  have h3 := ne_rk hout
  have h4 := ne_rk hdo
  have h3' := fun i => (ne_rk hout i).symm
  have h4' := fun i => (ne_rk hdo i).symm
  unfold dopri5Impl dopri5Step
  simp only [bind_assoc, pure_bind]
  refine Implements.store (rk_owned _) rfl ?_
  refine Implements.sys (rk_owned _) (by lookup) fun k2 w => ?_
  refine Implements.store (rk_owned _) rfl ?_
  refine Implements.sys (rk_owned _) (by lookup) fun k3 w => ?_
  refine Implements.store (rk_owned _) rfl ?_
  refine Implements.sys (rk_owned _) (by lookup) fun k4 w => ?_
  refine Implements.store (rk_owned _) rfl ?_
  refine Implements.sys (rk_owned _) (by lookup) fun k5 w => ?_
  refine Implements.store (rk_owned _) rfl ?_
  refine Implements.sys (rk_owned _) (by lookup) fun k6 w => ?_
  refine Implements.vstore ho houts rfl ?_
  refine Implements.vsys hdoe houts' (by lookup) fun k7 w => ?_
  refine H _ _ (by lookup) (by lookup) (by lookup) (by lookup) (fun hne => by lookup) (by lookup) ?_
  intro l hl hl' hor
  have hne : ∀ i, i < 8 → l ≠ .priv .rk i := by
    intro i hi
    rcases hor with hn | rfl
    · exact ne_rk hn i
    · simp only [mDxdtTmp, ne_eq, Loc.priv.injEq, true_and]; omega
  refine ⟨?_, rfl, rfl, rfl⟩
  simp only [Heap.set_state_apply, Heap.put_state_apply, mXTmp, mK, hl, hl', if_false, hne 0 (by omega),
    hne 3 (by omega), hne 4 (by omega), hne 5 (by omega), hne 6 (by omega), hne 7 (by omega), Nat.reduceAdd]

/-- What `dopri5Impl` does; on an exception the output may already be overwritten. -/
theorem dopri5_implements (sys : Sys K V W) (inp dxdtIn out dxdtOut : Loc) (t dt : K)
    (h : Heap K V W) (hinp : ¬ inp.ownedBy [.rk]) (hd : ¬ dxdtIn.ownedBy [.rk])
    (hout : ¬ out.ownedBy [.rk]) (hdo : ¬ dxdtOut.ownedBy [.rk]) (hne : out ≠ dxdtOut) :
    Implements [.rk] h (dopri5Impl sys inp dxdtIn t out dxdtOut dt)
      (dopri5Step sys (h.state inp) (h.state dxdtIn) t dt) (fun r => [(out, r.x), (dxdtOut, r.k7)])
      [out, dxdtOut] := by
  rw [← bind_pure (dopri5Impl sys inp dxdtIn t out dxdtOut dt), ← bind_pure (dopri5Step _ _ _ _ _)]
  refine dopri5_cont sys inp dxdtIn out dxdtOut t dt h hinp hd hout hdo _ _ _ _ (by simp) (by simp)
    (by simp) (by simp) fun r h' _ _ _ _ hx hk hf => ?_
  refine Implements.ret fun l hl => ⟨?_, rfl, rfl, rfl⟩
  simp only [Heap.setAll_cons, Heap.setAll_nil, Heap.set_state_apply]
  by_cases e : l = dxdtOut
  · subst e; simp [hk]
  · by_cases e' : l = out
    · subst e'; simp [e, hx hne]
    · simp [e, e']

theorem dopri5Err_implements (sys : Sys K V W) (inp dxdtIn out dxdtOut xerr : Loc) (t dt : K)
    (h : Heap K V W) (hinp : ¬ inp.ownedBy [.rk]) (hd : ¬ dxdtIn.ownedBy [.rk])
    (hout : ¬ out.ownedBy [.rk]) (hdo : ¬ dxdtOut.ownedBy [.rk]) (hne : out ≠ dxdtOut)
    (hio : dxdtIn ≠ out) :
    Implements [.rk] h (dopri5ErrImpl sys inp dxdtIn t out dxdtOut dt xerr)
      (dopri5Step sys (h.state inp) (h.state dxdtIn) t dt >>= fun r =>
        pure (r, dopri5Error (h.state dxdtIn) dt r))
      (fun r => [(out, r.1.x), (dxdtOut, r.1.k7), (xerr, r.2)])
      [out, dxdtOut] := by
  have fin : ∀ (h' : Heap K V W) (r : Dopri5Result V) (e : V) (l : Loc), h'.state out = r.x → h'.state dxdtOut = r.k7 →
      (h'.setAll [(out, r.x), (dxdtOut, r.k7), (xerr, e)]).SameAt (h'.set xerr e) l := by
    intro h' r e l hx hk
    refine ⟨?_, rfl, rfl, rfl⟩
    simp only [Heap.setAll_cons, Heap.setAll_nil, Heap.set_state_apply]
    by_cases e0 : l = xerr
    · simp [e0]
    · by_cases e1 : l = dxdtOut
      · subst e1; simp [hk]
      · by_cases e2 : l = out
        · subst e2; simp [hx, e1]
        · simp [e0, e1, e2]
  unfold dopri5ErrImpl
  by_cases hs : dxdtIn = dxdtOut
  · subst hs
    simp only [if_true]
    refine Implements.copy (rk_owned _) rfl ?_
    have a1 : (h.set mDxdtTmp (h.state dxdtIn)).state inp = h.state inp :=
      Heap.set_state_ne _ _ (ne_rk hinp _)
    have a2 : (h.set mDxdtTmp (h.state dxdtIn)).state dxdtIn = h.state dxdtIn :=
      Heap.set_state_ne _ _ (ne_rk hd _)
    have key := dopri5_cont (α := Dopri5Result V × V) sys inp dxdtIn out dxdtIn t dt
      (h.set mDxdtTmp (h.state dxdtIn)) hinp hd hout hdo
      (fun _ => linTo xerr ((dopri5Dc (K := K)).map (fun c => dt * c) |>.zip [mDxdtTmp, mK 3, mK 4, mK 5, mK 6, dxdtIn]))
      (fun r => pure (r, dopri5Error (h.state dxdtIn) dt r))
      (fun r => [(out, r.1.x), (dxdtIn, r.1.k7), (xerr, r.2)]) [out, dxdtIn] (by simp) (by simp)
      (by simp) (by simp)
    rw [a1, a2] at key
    refine key fun r h' e3 e4 e5 e6 hx hk hf => ?_
    have e1 : h'.state mDxdtTmp = h.state dxdtIn := by
      rw [(hf mDxdtTmp (ne_rk hout _).symm (ne_rk hd _).symm (Or.inr rfl)).1, Heap.set_state_self]
    refine Implements.lastStore (v := dopri5Error (h.state dxdtIn) dt r) ?_ ?_
    · simp only [dopri5Dc, List.map, List.zip_cons_cons, List.zip_nil_right, e1, e3, e4, e5, e6, hk, dopri5Error]
    · intro l _
      exact fin h' r _ l (hx hne) hk
  · simp only [hs, if_false]
    refine dopri5_cont sys inp dxdtIn out dxdtOut t dt h hinp hd hout hdo _ _ _ _ (by simp) (by simp)
      (by simp) (by simp) fun r h' e3 e4 e5 e6 hx hk hf => ?_
    have e1 : h'.state dxdtIn = h.state dxdtIn := (hf dxdtIn hio hs (Or.inl hd)).1
    refine Implements.lastStore (v := dopri5Error (h.state dxdtIn) dt r) ?_ ?_
    · simp only [dopri5Dc, List.map, List.zip_cons_cons, List.zip_nil_right, e1, e3, e4, e5, e6, hk, dopri5Error]
    · intro l _
      exact fin h' r _ l (hx hne) hk

end Verif
