import Verif.Lemmas.RoundingGlobal
import Verif.Props.Convergence

/-! # Runs of the integrate functions in any arithmetic -/

namespace Verif

variable {W K V Q : Type}

/-- observations of the states of a sequence at given times -/
def timedObs (X : ℕ → V) (τ : ℕ → K) (s k : ℕ) : Log V K := (List.range k).map fun i => .obs (X (s + i)) (τ (s + i))

theorem timedObs_succ (X : ℕ → V) (τ : ℕ → K) (s k : ℕ) : timedObs X τ s (k + 1) = .obs (X s) (τ s) :: timedObs X τ (s + 1) k := by
  simp only [timedObs, List.range_succ_eq_map, List.map_cons, List.map_map, add_zero, List.cons.injEq, true_and]
  refine List.map_congr_left fun i _ => ?_
  simp only [Function.comp_apply, Nat.succ_eq_add_one, show s + (i + 1) = s + 1 + i by omega]

theorem timedObs_last (X : ℕ → V) (τ : ℕ → K) (s k : ℕ) : timedObs X τ s (k + 1) = timedObs X τ s k ++ [.obs (X (s + k)) (τ (s + k))] := by
  simp [timedObs, List.range_succ]

theorem timedObs_observations (X : ℕ → V) (τ : ℕ → K) (n : ℕ) :
    Log.observations (timedObs X τ 0 n) = (List.range n).map fun i : ℕ => (X i, τ i) := by
  simp only [Log.observations, timedObs, zero_add, List.filterMap_map]
  exact congrFun List.filterMap_eq_map' _

/-- `Follows` in any arithmetic -/
def FollowsAny (A : TimeArith K) (st : BasicStepper Q (W × Log V K) V K) (t0 dt : K) (X : ℕ → V) (P : ℕ → Q → Prop) : Prop :=
  ∀ k q w l, P k q → ∃ q' w', st.doStep q (X k) (gridTime A t0 dt k) dt (w, l) = .ok (q', X (k + 1)) (w', l) ∧ P (k + 1) q'

variable {A : TimeArith K} {st : BasicStepper Q (W × Log V K) V K} {t0 dt : K} {X : ℕ → V} {P : ℕ → Q → Prop}

theorem followAny_nLoop (hst : FollowsAny A st t0 dt X P) :
    ∀ (k s : ℕ) (q : Q) (w : W) (l : Log V K), P s q →
    ∃ q' w', nStepsBasicLoop A st recordObserver t0 dt k s ⟨q, X s, gridTime A t0 dt s⟩ (w, l) =
      .ok ⟨q', X (s + k), gridTime A t0 dt (s + k)⟩ (w', l ++ timedObs X (gridTime A t0 dt) s k) := by
  intro k
  induction k with
  | zero =>
    intro s q w l _
    exact ⟨q, w, by simp [nStepsBasicLoop, timedObs, M.pure_apply]⟩
  | succ k ih =>
    intro s q w l hR
    obtain ⟨q1, w1, e1, hR1⟩ := hst s q w (l ++ [.obs (X s) (gridTime A t0 dt s)]) hR
    obtain ⟨q2, w2, e2⟩ := ih (s + 1) q1 w1 (l ++ [.obs (X s) (gridTime A t0 dt s)]) hR1
    refine ⟨q2, w2, ?_⟩
    rw [nStepsBasicLoop, M.bind_ok (recordObserver_ok _ _ _ _), M.bind_ok e1]
    rw [show s + (k + 1) = s + 1 + k by omega, timedObs_succ]
    exact e2.trans (by rw [List.append_assoc]; rfl)

theorem followAny_nSteps (hst : FollowsAny A st t0 dt X P) (n : ℕ) (q : Q) (w : W) (l : Log V K) (hR : P 0 q) :
    ∃ w', integrateNStepsBasic A st recordObserver q (X 0) t0 dt n (w, l) =
      .ok (X n, gridTime A t0 dt n) (w', l ++ timedObs X (gridTime A t0 dt) 0 (n + 1)) := by
  obtain ⟨q', w', h⟩ := followAny_nLoop hst n 0 q w l hR
  simp only [zero_add] at h
  refine ⟨w', ?_⟩
  have h0 : gridTime A t0 dt 0 = t0 := by simp [gridTime]
  rw [h0] at h
  rw [integrateNStepsBasic, M.bind_ok h, M.bind_ok (recordObserver_ok _ _ _ _), timedObs_last, ← List.append_assoc]
  simp only [zero_add]
  rfl

theorem followAny_cLoop (hst : FollowsAny A st t0 dt X P) (t1 : K) (n : ℕ)
    (hlt : ∀ k < n, A.lessEqWithSign (A.add (gridTime A t0 dt k) dt) t1 dt = true)
    (hn : A.lessEqWithSign (A.add (gridTime A t0 dt n) dt) t1 dt = false) :
    ∀ (k s : ℕ), s + k = n → ∀ (q : Q) (w : W) (l : Log V K), P s q →
    ∃ q' w', whileM (fun s : ConstState Q V K => A.lessEqWithSign (A.add s.time dt) t1 dt)
      (fun s => do
        recordObserver s.x s.time
        let (q, x) ← st.doStep s.q s.x s.time dt
        return ⟨q, x, A.add t0 (A.nmul (s.step + 1) dt), s.step + 1⟩)
      ⟨q, X s, gridTime A t0 dt s, s⟩ (w, l) =
      .ok ⟨q', X n, gridTime A t0 dt n, n⟩ (w', l ++ timedObs X (gridTime A t0 dt) s k) := by
  intro k
  induction k with
  | zero =>
    rintro s rfl q w l _
    refine ⟨q, w, ?_⟩
    rw [whileM_stop]
    · simp [timedObs]
    · exact hn
  | succ k ih =>
    intro s hs q w l hR
    obtain ⟨q1, w1, e1, hR1⟩ := hst s q w (l ++ [.obs (X s) (gridTime A t0 dt s)]) hR
    obtain ⟨q2, w2, e2⟩ := ih (s + 1) (by omega) q1 w1 (l ++ [.obs (X s) (gridTime A t0 dt s)]) hR1
    refine ⟨q2, w2, ?_⟩
    rw [timedObs_succ, List.append_cons, ← e2]
    refine whileM_step_ok (hlt s (by omega)) ?_
    rw [M.bind_ok (recordObserver_ok _ _ _ _), M.bind_ok e1, gridTime_succ]
    rfl

theorem followAny_const (hst : FollowsAny A st t0 dt X P) (t1 : K) (n : ℕ)
    (hlt : ∀ k < n, A.lessEqWithSign (A.add (gridTime A t0 dt k) dt) t1 dt = true)
    (hn : A.lessEqWithSign (A.add (gridTime A t0 dt n) dt) t1 dt = false) (q : Q) (w : W) (l : Log V K) (hR : P 0 q) :
    ∃ w', integrateConstBasic A st recordObserver q (X 0) t0 t1 dt (w, l) =
      .ok (X n, n) (w', l ++ timedObs X (gridTime A t0 dt) 0 (n + 1)) := by
  obtain ⟨q', w', h⟩ := followAny_cLoop hst t1 n hlt hn n 0 (by omega) q w l hR
  have h0 : gridTime A t0 dt 0 = t0 := by simp [gridTime]
  rw [h0] at h
  refine ⟨w', ?_⟩
  rw [integrateConstBasic, M.bind_ok h, M.bind_ok (recordObserver_ok _ _ _ _), timedObs_last, ← List.append_assoc]
  simp only [zero_add]
  rfl

/-- A step of `runge_kutta_dopri5` from the derivative that the stepper has stored, or from a new one if there is none, in any arithmetic. -/
theorem dopri5_step_any [Add K] [Sub K] [Mul K] [Div K] [IntCast K] [Neg K] [StateOps K V] {sys : Sys K V W} {g : V → K → V} (hs : Evaluates sys g)
    (resized : Bool) (q : Heap K V W) (x : V) (t dt : K) (w : W) (l : Log V K) {r : Dopri5Result V}
    (hr : Yields (dopri5Step sys x (if resized || q.flag mFirstCall then g x t else q.state mDxdt) t dt) r) :
    ∃ q', (stepperObject fun l t dt => fsalStep1 dopri5Impl resized sys l t dt).doStep q x t dt (w, l) = .ok (q', r.x) (q'.world, l) ∧
      q'.state mDxdt = r.k7 ∧ q'.flag mFirstCall = false := by
  set k := if resized || q.flag mFirstCall then g x t else q.state mDxdt with hk
  set h0 := (q.set (.user 0) x).withWorld w with hh0
  have hx : h0.state (.user 0) = x := by simp [hh0, Heap.withWorld, Heap.set]
  have hd : h0.state mDxdt = q.state mDxdt := by simp [hh0, Heap.withWorld, Heap.set, mDxdt]
  have hfl : h0.flag mFirstCall = q.flag mFirstCall := rfl
  obtain ⟨h1, e1, a1, a2, a3⟩ : ∃ h1, fsalPrepare resized sys (.user 0) t h0 = .ok () h1 ∧ h1.state mDxdt = k ∧ h1.state (.user 0) = x ∧
      h1.flag mFirstCall = false := by
    unfold fsalPrepare
    rw [M.bind_ok (m := getFlag mFirstCall) (w' := h0) (a := h0.flag mFirstCall) rfl, hfl]
    simp only [hk]
    split
    · obtain ⟨w', e⟩ := hs x t h0.world
      refine ⟨(h0.put mDxdt (g x t) w').putFlag mFirstCall false, ?_, ?_, ?_, ?_⟩
      · unfold fsalInitialize
        rw [M.bind_ok (m := callSys sys (.user 0) mDxdt t) (w' := h0.put mDxdt (g x t) w') (a := ())]
        · rfl
        · unfold callSys
          rw [hx, e]
      · simp [Heap.putFlag, Heap.put]
      · simpa [Heap.putFlag, Heap.put, mDxdt] using hx
      · simp [Heap.putFlag]
    · rename_i hc
      simp only [Bool.or_eq_true, not_or, Bool.not_eq_true] at hc
      exact ⟨h0, rfl, hd, hx, hc.2⟩
  obtain ⟨w2, e2⟩ := hr h1.world
  have H := dopri5_implements sys (.user 0) mDxdt (.user 0) mDxdt t dt h1 (ownedBy_user _ _) (by simp [mDxdt, Loc.ownedBy]) (ownedBy_user _ _)
    (by simp [mDxdt, Loc.ownedBy]) (by simp [mDxdt])
  rw [a1, a2] at H
  unfold Implements at H
  rw [e2] at H
  obtain ⟨h2, r1, -, r2⟩ := H
  have b1 : h2.state (.user 0) = r.x := by
    rw [(r2 _ (ownedBy_user _ _)).1]; simp [Heap.setAll, mDxdt, Heap.set_state_apply]
  have b2 : h2.state mDxdt = r.k7 := by
    rw [(r2 _ (by simp [mDxdt, Loc.ownedBy])).1]; simp [Heap.setAll, mDxdt]
  have b3 : h2.flag mFirstCall = false := by
    rw [(r2 _ (by simp [mFirstCall, Loc.ownedBy])).2.2.1, ← a3]; simp [Heap.setAll]
  refine ⟨h2, ?_, b2, b3⟩
  have e : fsalStep1 dopri5Impl resized sys (.user 0) t dt h0 = .ok () h2 := by
    unfold fsalStep1
    rw [M.bind_ok e1]
    exact r1
  simp only [stepperObject, ← hh0, e, b1]

end Verif
