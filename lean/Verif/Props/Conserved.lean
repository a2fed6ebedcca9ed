import Verif.Lemmas.Conserved
import Verif.Props.Linear
import Verif.Props.Verlet
import Verif.Props.ControlledRk
import Verif.Spec.ControlledRun
import Verif.Spec.SymplecticRun
import Mathlib.LinearAlgebra.CrossProduct

/-! # C76: conserved quantities are conserved by whole integrations -/

set_option linter.unusedSimpArgs false
set_option linter.unusedSectionVars false

namespace Verif

theorem Res.Keeps.of_implements {K V W α : Type} {os : List Owner} {h : Heap K V W} {p : StepM K V W Unit} {spec : M W α} {outs : α → List (Loc × V)}
    {exc : List Loc} (H : Implements os h p spec outs exc) {R : α → W → Prop} (hR : (spec h.world).Keeps R fun _ => True) :
    (p h).Keeps (fun _ h' => ∃ a, R a h'.world ∧ ∀ l, ¬ l.ownedBy os → (h.setAll (outs a)).SameAt h' l) fun _ => True := by
  unfold Implements at H
  cases hs : spec h.world with
  | ok a w =>
    rw [hs] at H hR
    obtain ⟨h', e1, e2, e3⟩ := H
    rw [e1]
    exact ⟨a, by rw [e2]; exact hR, e3⟩
  | err e w => rw [hs] at H; obtain ⟨h', e1, -⟩ := H; rw [e1]; trivial
  | ub => rw [hs] at H; rw [H]; trivial
  | div => rw [hs] at H; rw [H]; trivial

theorem Res.Keeps.of_computes {K V W α β : Type} {os : List Owner} {h : Heap K V W} {p : StepM K V W β} {spec : M W α} {ret : α → β}
    {outs : α → List (Loc × V)} {exc : List Loc} (H : Computes os h p spec ret outs exc) {R : α → W → Prop}
    (hR : (spec h.world).Keeps R fun _ => True) :
    (p h).Keeps (fun _ h' => ∃ a, R a h'.world ∧ ∀ l, ¬ l.ownedBy os → (h.setAll (outs a)).SameAt h' l) fun _ => True := by
  unfold Computes at H
  cases hs : spec h.world with
  | ok a w =>
    rw [hs] at H hR
    obtain ⟨h', e1, e2, e3⟩ := H
    rw [e1]
    exact ⟨a, by rw [e2]; exact hR, e3⟩
  | err e w => rw [hs] at H; obtain ⟨h', e1, -⟩ := H; rw [e1]; trivial
  | ub => rw [hs] at H; rw [H]; trivial
  | div => rw [hs] at H; rw [H]; trivial

theorem stepperObject_keeps {K V W : Type} {doStep : Loc → K → K → StepM K V W Unit} {J : Heap K V W → V → Prop} {P : V → Prop}
    (h : ∀ (h : Heap K V W) (t dt : K) h', J h (h.state (.user 0)) → P (h.state (.user 0)) → doStep (.user 0) t dt h = .ok () h' →
      J h' (h'.state (.user 0)) ∧ P (h'.state (.user 0)))
    (hJ : ∀ q x w y, J q x → J ((q.set (.user 0) y).withWorld w) x) :
    StepKeeps (stepperObject doStep) J P := by
  intro q x t dt w l hq hx
  unfold Res.Keeps
  simp only [stepperObject]
  have e0 : ((q.set (.user 0) x).withWorld w).state (.user 0) = x := by
    simp [Heap.withWorld, Heap.set_state_apply]
  cases e : doStep (.user 0) t dt ((q.set (.user 0) x).withWorld w) with
  | ok a h' =>
    obtain ⟨h1, h2⟩ := h _ t dt h' (by rw [e0]; exact hJ q x w x hq) (by rw [e0]; exact hx) e
    exact ⟨h1, h2, rfl⟩
  | err _ _ => trivial
  | ub => trivial
  | div => trivial

theorem pairStepperObject_keeps {K V W : Type} {doStep : Loc → Loc → K → K → StepM K V W Unit} {J : Heap K V W → V × V → Prop} {P : V × V → Prop}
    (h : ∀ (h : Heap K V W) (t dt : K), J h (h.state (.user 0), h.state (.user 1)) → P (h.state (.user 0), h.state (.user 1)) →
      (doStep (.user 0) (.user 1) t dt h).Keeps (fun _ h' => J h' (h'.state (.user 0), h'.state (.user 1)) ∧ P (h'.state (.user 0), h'.state (.user 1)))
        fun _ => True)
    (hJ : ∀ q x w y z, J q x → J (((q.set (.user 0) y).set (.user 1) z).withWorld w) x) :
    StepKeeps (pairStepperObject doStep) J P := by
  intro q x t dt w l hq hx
  unfold Res.Keeps
  simp only [pairStepperObject]
  have e0 : (((q.set (.user 0) x.1).set (.user 1) x.2).withWorld w).state (.user 0) = x.1 := by
    simp [Heap.withWorld, Heap.set_state_apply]
  have e1 : (((q.set (.user 0) x.1).set (.user 1) x.2).withWorld w).state (.user 1) = x.2 := by
    simp [Heap.withWorld, Heap.set_state_apply]
  have := h (((q.set (.user 0) x.1).set (.user 1) x.2).withWorld w) t dt (by rw [e0, e1]; exact hJ q x w _ _ hq) (by rw [e0, e1]; exact hx)
  cases e : doStep (.user 0) (.user 1) t dt (((q.set (.user 0) x.1).set (.user 1) x.2).withWorld w) with
  | ok a h' =>
    rw [e] at this
    exact ⟨this.1, this.2, rfl⟩
  | err _ _ => trivial
  | ub => trivial
  | div => trivial

/-! ## Bilinear invariants: symplectic steppers and `velocity_verlet` -/

section bilinear
variable {K V U W : Type} [Field K] [AddCommGroup V] [Module K V] [AddCommGroup U] [Module K U]

theorem rknRecipe_keeps (P : V × V → Prop) {coor mom : V → M W V} (hc : ∀ q p w v w' (a : K), coor p w = .ok v w' → P (q, p) → P (q + a • v, p))
    (hm : ∀ q p w v w' (a : K), mom q w = .ok v w' → P (q, p) → P (q, p + a • v)) (dt : K) :
    ∀ (coef : List (K × K)) (q p : V) (w : W), P (q, p) → (rknRecipe coor mom dt coef q p w).Keeps (fun z _ => P z) fun _ => True := by
  intro coef
  induction coef with
  | nil => intro q p w h; exact h
  | cons c cs ih =>
    obtain ⟨a, b⟩ := c
    intro q p w h
    have e : ∀ (x y : V) (c : K), lin [(lit 1, x), (c, y)] = x + c • y := fun x y c => by simp [lin, lit]
    refine Res.Keeps.bind (R := fun v _ => ∃ w w', coor p w = .ok v w') ?_ ?_
    · cases hx : coor p w with
      | ok v w' => exact ⟨w, w', hx⟩
      | err _ _ => trivial
      | ub => trivial
      | div => trivial
    · rintro dq w1 ⟨w2, w3, h1⟩
      refine Res.Keeps.bind (R := fun v _ => ∃ w w', mom (lin [(lit 1, q), (a * dt, dq)]) w = .ok v w') ?_ ?_
      · cases hx : mom (lin [(lit 1, q), (a * dt, dq)]) w1 with
        | ok v w' => exact ⟨w1, w', hx⟩
        | err _ _ => trivial
        | ub => trivial
        | div => trivial
      · rintro dp w4 ⟨w5, w6, h2⟩
        rw [e] at h2 ⊢
        rw [e]
        exact ih _ _ _ (hm _ _ _ _ _ _ h2 (hc _ _ _ _ _ _ h1 h))

theorem symplectic_keeps (P : V × V → Prop) {coor mom : V → M W V} (hc : ∀ q p w v w' (a : K), coor p w = .ok v w' → P (q, p) → P (q + a • v, p))
    (hm : ∀ q p w v w' (a : K), mom q w = .ok v w' → P (q, p) → P (q, p + a • v)) (coef : List (K × K)) (hn : coef ≠ []) :
    StepKeeps (pairStepperObject (K := K) fun q p _ dt => rknDoStep coef coor mom q p dt) (fun _ _ => True) P := by
  refine pairStepperObject_keeps (fun h t dt _ hP => ?_) fun _ _ _ _ _ _ => trivial
  have u : ∀ n, ¬ (Loc.user n).ownedBy [.symp] := fun n => by simp
  have n01 : Loc.user 0 ≠ .user 1 := by decide
  refine (Res.Keeps.of_implements (rknStepPair_implements coor mom _ _ _ _ dt (u 0) (u 1) (u 0) (u 1) n01 n01 coef hn h)
    (rknRecipe_keeps P hc hm dt coef _ _ _ hP)).mono ?_ fun _ _ => trivial
  rintro _ h' ⟨z, hz, hs⟩
  refine ⟨trivial, ?_⟩
  rw [(hs _ (u 0)).1, (hs _ (u 1)).1]
  simpa [Heap.setAll, Heap.set_state_apply] using hz

theorem symplectic_mom_keeps (P : V × V → Prop) {mom : V → M W V} (hc : ∀ q p (a : K), P (q, p) → P (q + a • p, p))
    (hm : ∀ q p w v w' (a : K), mom q w = .ok v w' → P (q, p) → P (q, p + a • v)) (coef : List (K × K)) (hn : coef ≠ []) :
    StepKeeps (pairStepperObject (K := K) fun q p _ dt => rknDoStepMom coef mom q p dt) (fun _ _ => True) P := by
  refine pairStepperObject_keeps (fun h t dt _ hP => ?_) fun _ _ _ _ _ _ => trivial
  have u : ∀ n, ¬ (Loc.user n).ownedBy [.symp] := fun n => by simp
  have n01 : Loc.user 0 ≠ .user 1 := by decide
  refine (Res.Keeps.of_implements (rknStepMom_implements mom _ _ _ _ dt (u 1) (u 0) (u 1) n01 n01 coef hn h)
    (rknRecipe_keeps (coor := pure) P (fun q p w v w' a e => ?_) hm dt coef _ _ _ hP)).mono ?_ fun _ _ => trivial
  · obtain ⟨rfl, -⟩ := Res.ok.inj e
    exact hc q p a
  · rintro _ h' ⟨z, hz, hs⟩
    refine ⟨trivial, ?_⟩
    rw [(hs _ (u 0)).1, (hs _ (u 1)).1]
    simpa [Heap.setAll, Heap.set_state_apply] using hz

theorem bilinear_drift {B : V →ₗ[K] V →ₗ[K] U} {q p v : V} {c : U} (hv : B v p = 0) (a : K) (h : B q p = c) : B (q + a • v) p = c := by
  simp only [map_add, map_smul, LinearMap.add_apply, LinearMap.smul_apply, hv, smul_zero, add_zero, h]

theorem bilinear_kick {B : V →ₗ[K] V →ₗ[K] U} {q p v : V} {c : U} (hv : B q v = 0) (a : K) (h : B q p = c) : B q (p + a • v) = c := by
  simp only [map_add, map_smul, hv, smul_zero, add_zero, h]

theorem linear_kick {l : V →ₗ[K] U} {p v : V} {c : U} (hv : l v = 0) (a : K) (h : l p = c) : l (p + a • v) = c := by
  simp only [map_add, map_smul, hv, smul_zero, add_zero, h]

/-- **C76**, symplectic steppers.  Let `B( q , p )` be linear in `q` and in `p`, like the angular momentum, and let the system conserve it:
`B( dq/dt , p ) = 0` for every derivative `dq/dt` the first function returns for `p`, and `B( q , dp/dt ) = 0` for every derivative the second
function returns for `q`.  Then whole integrations with a symplectic stepper, with any coefficients, conserve `B` exactly: it has the value of the
start state in every observed state and at the end. -/
theorem symplectic_conserves (B : V →ₗ[K] V →ₗ[K] U) {coor mom : V → M W V} (hc : ∀ p w v w', coor p w = .ok v w' → B v p = 0)
    (hm : ∀ q w v w', mom q w = .ok v w' → B q v = 0) (coef : List (K × K)) (hn : coef ≠ []) (c : U) :
    BasicConserves (pairStepperObject (K := K) fun q p _ dt => rknDoStep coef coor mom q p dt) (fun _ => True) fun z => B z.1 z.2 = c :=
  basic_conserves (symplectic_keeps _ (fun _ _ _ _ _ a e h => bilinear_drift (hc _ _ _ _ e) a h)
    (fun _ _ _ _ _ a e h => bilinear_kick (hm _ _ _ _ e) a h) coef hn) fun _ _ _ _ => trivial

/-- **C76**, symplectic steppers called with one function, for `dq/dt = p`. -/
theorem symplectic_mom_conserves (B : V →ₗ[K] V →ₗ[K] U) (hB : ∀ p, B p p = 0) {mom : V → M W V} (hm : ∀ q w v w', mom q w = .ok v w' → B q v = 0)
    (coef : List (K × K)) (hn : coef ≠ []) (c : U) :
    BasicConserves (pairStepperObject (K := K) fun q p _ dt => rknDoStepMom coef mom q p dt) (fun _ => True) fun z => B z.1 z.2 = c :=
  basic_conserves (symplectic_mom_keeps _ (fun _ p a h => bilinear_drift (hB p) a h)
    (fun _ _ _ _ _ a e h => bilinear_kick (hm _ _ _ _ e) a h) coef hn) fun _ _ _ _ => trivial

/-- **C76**: linear functions of the momenta, like the total momentum, are conserved too. -/
theorem symplectic_momentum_conserved (l : V →ₗ[K] U) {coor mom : V → M W V} (hm : ∀ q w v w', mom q w = .ok v w' → l v = 0) (coef : List (K × K))
    (hn : coef ≠ []) (c : U) :
    BasicConserves (pairStepperObject (K := K) fun q p _ dt => rknDoStep coef coor mom q p dt) (fun _ => True) (fun z => l z.2 = c) ∧
    BasicConserves (pairStepperObject (K := K) fun q p _ dt => rknDoStepMom coef mom q p dt) (fun _ => True) (fun z => l z.2 = c) :=
  ⟨basic_conserves (symplectic_keeps _ (fun _ _ _ _ _ _ _ h => h) (fun _ _ _ _ _ a e h => linear_kick (hm _ _ _ _ e) a h) coef hn)
      fun _ _ _ _ => trivial,
    basic_conserves (symplectic_mom_keeps _ (fun _ _ _ h => h) (fun _ _ _ _ _ a e h => linear_kick (hm _ _ _ _ e) a h) coef hn)
      fun _ _ _ _ => trivial⟩

/-- A particle in a central field whose strength depends on the place in any way; the stepper is `symplectic_rkn_sb3a_mclachlan`. -/
example (k : (Fin 3 → ℝ) → ℝ) (c : Fin 3 → ℝ) : BasicConserves (pairStepperObject (K := ℝ) fun q p _ dt =>
    rknDoStepMom sb3aCoef (fun q (n : ℕ) => .ok (-(k q) • q) (n + 1)) q p dt) (fun _ => True) fun z => crossProduct z.1 z.2 = c :=
  symplectic_mom_conserves crossProduct (fun _ => cross_self _) (fun q w v w' e => by
    obtain ⟨rfl, -⟩ := Res.ok.inj e
    rw [map_smul, cross_self, smul_zero]) _ (by simp [sb3aCoef, sb3aA, sb3aB]) c

/-! ### velocity_verlet -/

theorem verletStep_ok {sys : Sys2 K V W} {q p a a' : Loc} {t dt : K} {h h' : Heap K V W} (hqp : q ≠ p) (hqa : q ≠ a) (hpa' : p ≠ a')
    (haa' : a ≠ a') (hqa' : q ≠ a') (he : verletStep sys q p a q p a' t dt h = .ok () h') :
    ∃ v w, sys (h.state q + dt • (h.state p + (1 / 2 * dt) • h.state a)) (h.state p) (t + dt) h.world = .ok v w ∧
      h'.state q = h.state q + dt • (h.state p + (1 / 2 * dt) • h.state a) ∧
      h'.state p = h.state p + (1 / 2 * dt) • h.state a + (1 / 2 * dt) • v ∧ h'.state a' = v ∧ h'.flag = h.flag := by
  have e1 : lin [(lit 1, h.state q), (lit 1 * dt, h.state p), (frac 1 2 * dt * dt, h.state a)] =
      h.state q + dt • (h.state p + (1 / 2 * dt) • h.state a) := by
    simp only [lin, lit, frac, List.map_cons, List.map_nil, List.sum_cons, List.sum_nil, Int.cast_one, one_smul, one_mul, add_zero,
      Int.cast_ofNat]
    module
  have e2 : ∀ v : V, lin [(lit 1, h.state p), (frac 1 2 * dt, h.state a), (frac 1 2 * dt, v)] =
      h.state p + (1 / 2 * dt) • h.state a + (1 / 2 * dt) • v := by
    intro v
    simp only [lin, lit, frac, List.map_cons, List.map_nil, List.sum_cons, List.sum_nil, Int.cast_one, one_smul, one_mul, add_zero,
      Int.cast_ofNat]
    module
  unfold verletStep at he
  simp only [M.bind_apply, linTo, callSys2, List.map_cons, List.map_nil, Heap.set_state_self, Heap.set_state_ne _ _ hqp.symm, Heap.set_world, e1] at he
  cases hs : sys (h.state q + dt • (h.state p + (1 / 2 * dt) • h.state a)) (h.state p) (t + dt) h.world with
  | ok v w =>
    rw [hs] at he
    simp only [Heap.put_state_self, Heap.put_state_ne _ _ _ hpa', Heap.put_state_ne _ _ _ haa', Heap.set_state_ne _ _ hqp.symm,
      Heap.set_state_ne _ _ hqa.symm, e2, Res.ok.injEq, true_and] at he
    rw [← he]
    refine ⟨v, w, rfl, ?_, ?_, ?_, rfl⟩
    · rw [Heap.set_state_ne _ _ hqp, Heap.put_state_ne _ _ _ hqa', Heap.set_state_self]
    · rw [Heap.set_state_self]
    · rw [Heap.set_state_ne _ _ hpa'.symm, Heap.put_state_self]
  | err e w => rw [hs] at he; cases he
  | ub => rw [hs] at he; cases he
  | div => rw [hs] at he; cases he

/-- **C76**, `velocity_verlet`, starting with a new or reset stepper: `B( q , v )` with `B( v , v ) = 0`, like the angular momentum, is conserved if
`B( q , a ) = 0` for every acceleration the system function returns for `q`, even if the accelerations depend on the velocity and the time. -/
theorem verlet_conserves (B : V →ₗ[K] V →ₗ[K] U) (hB : ∀ p, B p p = 0) {sys : Sys2 K V W}
    (hs : ∀ q p t w v w', sys q p t w = .ok v w' → B q v = 0) (resized : Bool) (c : U) :
    BasicConserves (pairStepperObject (K := K) fun q p t dt => verletDoStep resized sys q p t dt) (fun h => h.flag mVerletFirst = true)
      fun z => B z.1 z.2 = c := by
  refine basic_conserves (J := fun h z => h.flag mVerletFirst = false → B z.1 (h.state (currentAcc (h.flag mCurrentA1))) = 0) ?_ ?_
  · refine pairStepperObject_keeps (fun h t dt hJ hP => ?_) ?_
    · cases he : verletDoStep resized sys (.user 0) (.user 1) t dt h with
      | err _ _ => trivial
      | ub => trivial
      | div => trivial
      | ok _ h' =>
        have n0 : ∀ b, Loc.user 0 ≠ currentAcc b := by intro b; cases b <;> decide
        have n1 : ∀ b, Loc.user 1 ≠ currentAcc b := by intro b; cases b <;> decide
        -- the acceleration at the beginning
        have key : ∀ g : Heap K V W, g.state (.user 0) = h.state (.user 0) → g.state (.user 1) = h.state (.user 1) →
            B (h.state (.user 0)) (g.state (currentAcc (g.flag mCurrentA1))) = 0 → g.flag mVerletFirst = false →
            (do let b ← getFlag mCurrentA1
                verletStep sys (.user 0) (.user 1) (currentAcc b) (.user 0) (.user 1) (oldAcc b) t dt
                setFlag mCurrentA1 (!b) : StepM K V W Unit) g = .ok () h' →
            (h'.flag mVerletFirst = false → B (h'.state (.user 0)) (h'.state (currentAcc (h'.flag mCurrentA1))) = 0) ∧
              B (h'.state (.user 0)) (h'.state (.user 1)) = c := by
          intro g g0 g1 ga gf e
          rw [M.bind_apply] at e
          simp only [getFlag] at e
          generalize hb : g.flag mCurrentA1 = b at ga e
          rw [M.bind_apply] at e
          cases e1 : verletStep sys (.user 0) (.user 1) (currentAcc b) (.user 0) (.user 1) (oldAcc b) t dt g with
          | err _ _ => rw [e1] at e; cases e
          | ub => rw [e1] at e; cases e
          | div => rw [e1] at e; cases e
          | ok _ g' =>
            rw [e1] at e
            obtain ⟨v, w, s1, s2, s3, s4, s5⟩ := verletStep_ok (by decide) (n0 b) (by cases b <;> decide) (by cases b <;> decide)
              (by cases b <;> decide) e1
            have hv := hs _ _ _ _ _ _ s1
            simp only [setFlag, Res.ok.injEq, true_and] at e
            subst e
            have c1 : currentAcc (!b) = oldAcc b := by cases b <;> rfl
            rw [g0, g1] at s2
            rw [g1] at s3
            rw [g0, g1] at hv
            refine ⟨fun _ => ?_, ?_⟩
            · simp only [Heap.putFlag, Function.update_self, c1]
              rw [s2, s4]
              exact hv
            · show B (g'.state (.user 0)) (g'.state (.user 1)) = c
              rw [s2, s3]
              refine bilinear_kick hv _ ?_
              refine bilinear_drift (hB _) _ ?_
              exact bilinear_kick ga _ hP
        unfold verletDoStep at he
        simp only [M.bind_apply, getFlag] at he
        by_cases hc : (resized || h.flag mVerletFirst) = true
        · rw [if_pos hc] at he
          simp only [verletInitialize, M.bind_apply, getFlag, callSys2, setFlag] at he
          cases hx : sys (h.state (.user 0)) (h.state (.user 1)) t h.world with
          | err _ _ => rw [hx] at he; cases he
          | ub => rw [hx] at he; cases he
          | div => rw [hx] at he; cases he
          | ok v w =>
            rw [hx] at he
            refine key ((h.put (currentAcc (h.flag mCurrentA1)) v w).putFlag mVerletFirst false) ?_ ?_ ?_ ?_ he
            · simp [Heap.putFlag, Heap.put_state_ne _ _ _ (n0 _)]
            · simp [Heap.putFlag, Heap.put_state_ne _ _ _ (n1 _)]
            · have : (Function.update h.flag mVerletFirst false) mCurrentA1 = h.flag mCurrentA1 := by
                rw [Function.update_of_ne (by decide)]
              simp [Heap.putFlag, this, hs _ _ _ _ _ _ hx]
            · simp [Heap.putFlag]
        · rw [if_neg hc] at he
          have hf : h.flag mVerletFirst = false := by simp at hc; exact hc.2
          exact key h rfl rfl (hJ hf) hf he
    · intro q x w y z hq hf
      have n0 : ∀ b, currentAcc b ≠ Loc.user 0 := by intro b; cases b <;> decide
      have n1 : ∀ b, currentAcc b ≠ Loc.user 1 := by intro b; cases b <;> decide
      simpa [Heap.withWorld, Heap.set_state_apply, n0, n1] using hq hf
  · intro q x hq _ hq'
    rw [hq] at hq'
    cases hq'

/-- A particle in a central field with a velocity dependent strength: the angular momentum `q × v` in three dimensions. -/
example (k : (Fin 3 → ℝ) → (Fin 3 → ℝ) → ℝ → ℝ) (c : Fin 3 → ℝ) :
    BasicConserves (pairStepperObject (K := ℝ) fun q p t dt => verletDoStep false (fun q p t (n : ℕ) => .ok (k q p t • q) (n + 1)) q p t dt)
      (fun h => h.flag mVerletFirst = true) fun z => crossProduct z.1 z.2 = c :=
  verlet_conserves crossProduct (fun _ => cross_self _) (fun q p t w v w' e => by
    obtain ⟨rfl, -⟩ := Res.ok.inj e
    rw [map_smul, cross_self, smul_zero]) false c

/-! ### Linear invariants -/

/-- every derivative the system function returns is annihilated by `l` -/
def InKernel (l : V →ₗ[K] U) (sys : Sys K V W) : Prop := ∀ x t w v w', sys x t w = .ok v w' → l v = 0

variable {l : V →ₗ[K] U} {sys : Sys K V W}

theorem InKernel.call (h : InKernel l sys) (x : V) (t : K) (w : W) : (sys x t w).Keeps (fun k _ => l k = 0) fun _ => True := by
  cases e : sys x t w with
  | ok v w' => exact h _ _ _ _ _ e
  | err _ _ => trivial
  | ub => trivial
  | div => trivial

theorem map_lin (l : V →ₗ[K] U) (ps : List (K × V)) : l (lin ps) = (ps.map fun p => p.1 • l p.2).sum := by
  rw [lin_exact, map_list_sum, List.map_map]
  congr 1
  refine List.map_congr_left fun p _ => ?_
  simp

theorem map_lin_zero (ps : List (K × V)) (h : ∀ p ∈ ps, l p.2 = 0) : l (lin ps) = 0 := by
  rw [map_lin]
  refine List.sum_eq_zero fun y hy => ?_
  obtain ⟨p, hp, rfl⟩ := List.mem_map.1 hy
  rw [h p hp, smul_zero]

theorem map_lin_cons (x : V) (ps : List (K × V)) (h : ∀ p ∈ ps, l p.2 = 0) : l (lin ((lit 1, x) :: ps)) = l x := by
  have := map_lin_zero ps h
  rw [map_lin] at this
  rw [map_lin, List.map_cons, List.sum_cons, this]
  simp [lit]

theorem rkStages_linear (hl : InKernel l sys) (x : V) (t dt : K) : ∀ (rows : List (K × List K)) (ks : List V) (w : W), (∀ k ∈ ks, l k = 0) →
    (rkStages sys x t dt rows ks w).Keeps (fun ks _ => ∀ k ∈ ks, l k = 0) fun _ => True := by
  intro rows
  induction rows with
  | nil => intro ks w h; exact h
  | cons r rows ih =>
    intro ks w h
    refine (hl.call _ _ _).bind fun k w hk => ih _ _ fun y hy => ?_
    rcases List.mem_append.1 hy with hy | hy
    · exact h y hy
    · rw [List.mem_singleton.1 hy]; exact hk

theorem rkResult_linear (b : List K) (x : V) (dt : K) (ks : List V) (h : ∀ k ∈ ks, l k = 0) : l (rkResult b x dt ks) = l x :=
  map_lin_cons _ _ fun p hp => h _ (List.of_mem_zip hp).2

theorem rkStep_linear (hl : InKernel l sys) (T : Tableau K) (x k : V) (hk : l k = 0) (t dt : K) (w : W) :
    (rkStep T sys x k t dt w).Keeps (fun y _ => l y = l x) fun _ => True :=
  (rkStages_linear hl x t dt _ [k] w (by simpa using hk)).bind fun _ _ h => rkResult_linear _ _ _ _ h

theorem cashKarpClassicStages_linear (hl : InKernel l sys) (x k : V) (hk : l k = 0) (t dt : K) (w : W) :
    (cashKarpClassicStages sys x k t dt w).Keeps (fun y _ => l y.2.2.2.2 = l x) fun _ => True := by
  unfold cashKarpClassicStages
  refine (hl.call _ _ _).bind fun k2 w h2 => (hl.call _ _ _).bind fun k3 w h3 => (hl.call _ _ _).bind fun k4 w h4 =>
    (hl.call _ _ _).bind fun k5 w h5 => (hl.call _ _ _).bind fun k6 w h6 => ?_
  refine map_lin_cons _ _ ?_
  simp [hk, h3, h4, h6]

theorem leapFrog_linear (hl : InKernel l sys) (h : K) (c : U) : ∀ (n : ℕ) (th : K) (x0 x1 d : V) (w : W), l x0 = c → l x1 = c → l d = 0 →
    (leapFrog sys h n th x0 x1 d w).Keeps (fun r _ => l r.1 = c ∧ l r.2.1 = c ∧ l r.2.2 = 0) fun _ => True := by
  intro n
  induction n with
  | zero => intro th x0 x1 d w h0 h1 hd; exact ⟨h0, h1, hd⟩
  | succ n ih =>
    intro th x0 x1 d w h0 h1 hd
    refine (hl.call _ _ _).bind fun d' w hd' => ih _ _ _ _ _ h1 ?_ hd'
    rw [map_lin_cons _ _ (by simp [hd]), h0]

theorem midpointStep_linear [NeZero (2 : K)] (hl : InKernel l sys) (m : ℕ) (x k : V) (hk : l k = 0) (t dt : K) (w : W) :
    (midpointStep m sys x k t dt w).Keeps (fun y _ => l y = l x) fun _ => True := by
  unfold midpointStep
  refine (hl.call _ _ _).bind fun d w hd => ?_
  refine (leapFrog_linear hl _ (l x) _ _ _ _ _ _ rfl (map_lin_cons _ _ (by simp [hk])) hd).bind ?_
  rintro ⟨x0, x1, d'⟩ w ⟨h0, h1, h2⟩
  show l (lin _) = l x
  simp only at h0 h1 h2
  simp only [map_lin, List.map_cons, List.map_nil, List.sum_cons, List.sum_nil, h0, h1, h2, smul_zero, add_zero, ← add_smul]
  have : (frac 1 2 + frac 1 2 : K) = 1 := by
    simp only [frac, lit, Int.cast_one, Int.cast_ofNat]
    exact add_halves (1 : K)
  rw [this, one_smul]

theorem recipe_linear [NeZero (2 : K)] (hl : InKernel l sys) (s : ExplicitStepper K) (x k : V) (hk : l k = 0) (t dt : K) (w : W) :
    (s.recipe sys x k t dt w).Keeps (fun y _ => l y = l x) fun _ => True := by
  cases s with
  | euler => exact map_lin_cons _ _ (by simp [hk])
  | generic T => exact rkStep_linear hl _ _ _ hk _ _ _
  | rk4 => exact rkStep_linear hl _ _ _ hk _ _ _
  | rk4Classic =>
    refine (hl.call _ _ _).bind fun k2 w h2 => (hl.call _ _ _).bind fun k3 w h3 => (hl.call _ _ _).bind fun k4 w h4 => ?_
    exact map_lin_cons _ _ (by simp [hk, h2, h3, h4])
  | cashKarp => exact rkStep_linear hl _ _ _ hk _ _ _
  | cashKarpClassic => exact (cashKarpClassicStages_linear hl x k hk t dt w).bind fun _ _ h => h
  | fehlberg => exact rkStep_linear hl _ _ _ hk _ _ _
  | midpoint m => exact midpointStep_linear hl m x k hk t dt w

theorem errRecipe_linear (hl : InKernel l sys) (s : ErrorStepper K) (x k : V) (hk : l k = 0) (t dt : K) (w : W) :
    (s.errRecipe sys x k t dt w).Keeps (fun y _ => l y.1 = l x) fun _ => True := by
  have key : ∀ T b2, (rkErrStep T b2 sys x k t dt w).Keeps (fun y _ => l y.1 = l x) fun _ => True := fun T b2 =>
    (rkStages_linear hl x t dt _ [k] w (by simpa using hk)).bind fun _ _ h => rkResult_linear _ _ _ _ h
  cases s with
  | generic T b2 => exact key _ _
  | cashKarp => exact key _ _
  | cashKarpClassic => exact (cashKarpClassicStages_linear hl x k hk t dt w).bind fun _ _ h => h
  | fehlberg => exact key _ _

theorem dopri5Step_linear (hl : InKernel l sys) (x k : V) (hk : l k = 0) (t dt : K) (w : W) :
    (dopri5Step sys x k t dt w).Keeps (fun r _ => l r.x = l x ∧ l r.k7 = 0) fun _ => True := by
  unfold dopri5Step
  refine (hl.call _ _ _).bind fun k2 w h2 => (hl.call _ _ _).bind fun k3 w h3 => (hl.call _ _ _).bind fun k4 w h4 =>
    (hl.call _ _ _).bind fun k5 w h5 => (hl.call _ _ _).bind fun k6 w h6 => (hl.call _ _ _).bind fun k7 w h7 => ?_
  exact ⟨map_lin_cons _ _ (by simp [hk, h3, h4, h5, h6]), h7⟩

/-- **C76**, explicit steppers.  If every derivative the system function returns is in the kernel of the linear map `l` (the system itself may be
nonlinear and time dependent), then `l` of the state is conserved in whole integrations with every explicit stepper. -/
theorem explicit_linear_conserved [NeZero (2 : K)] (s : ExplicitStepper K) (hw : s.WellFormed) (hl : InKernel l sys) (c : U) :
    BasicConserves (stepperObject (K := K) fun x t dt => doStep1 s.impl sys x t dt) (fun _ => True) fun x => l x = c := by
  refine basic_conserves (J := fun _ _ => True) (stepperObject_keeps (fun h t dt h' _ hP he => ⟨trivial, ?_⟩) fun _ _ _ _ _ => trivial)
    fun _ _ _ _ => trivial
  have := Res.Keeps.of_implements (doStep1_implements s hw sys (.user 0) t dt h (ownedBy_user _ _))
    ((hl.call _ _ _).bind fun k w hk => recipe_linear hl s _ k hk t dt w)
  rw [he] at this
  obtain ⟨v, hv, hs⟩ := this
  rw [(hs _ (ownedBy_user _ _)).1]
  simpa [Heap.setAll, hv] using hP

/-- **C76**, `runge_kutta_dopri5`, starting with a new or reset stepper. -/
theorem dopri5_linear_conserved (resized : Bool) (hl : InKernel l sys) (c : U) :
    BasicConserves (stepperObject (K := K) fun x t dt => fsalStep1 dopri5Impl resized sys x t dt) (fun h => h.flag mFirstCall = true)
      fun x => l x = c := by
  refine basic_conserves (J := fun h _ => h.flag mFirstCall = false → l (h.state mDxdt) = 0) (stepperObject_keeps (fun h t dt h' hJ hP he => ?_) ?_)
    fun q x hq _ hq' => by rw [hq] at hq'; cases hq'
  · have key : ∀ g : Heap K V W, g.state (.user 0) = h.state (.user 0) → l (g.state mDxdt) = 0 →
        dopri5Impl sys (.user 0) mDxdt t (.user 0) mDxdt dt g = .ok () h' → l (h'.state mDxdt) = 0 ∧ l (h'.state (.user 0)) = c := by
      intro g g0 gd e
      have := Res.Keeps.of_implements (dopri5_implements sys (.user 0) mDxdt (.user 0) mDxdt t dt g (by simp) (by simp [mDxdt, Loc.ownedBy]) (by simp)
        (by simp [mDxdt, Loc.ownedBy]) (by simp [mDxdt])) (dopri5Step_linear hl _ _ gd t dt _)
      rw [e] at this
      obtain ⟨r, ⟨r1, r2⟩, hs⟩ := this
      rw [(hs mDxdt (by simp [mDxdt, Loc.ownedBy])).1, (hs (.user 0) (by simp)).1]
      simp [Heap.setAll, Heap.set_state_apply, mDxdt, r1, r2, g0, hP]
    unfold fsalStep1 fsalPrepare at he
    simp only [M.bind_apply, getFlag] at he
    by_cases hc : (resized || h.flag mFirstCall) = true
    · rw [if_pos hc] at he
      simp only [fsalInitialize, callSys, setFlag, M.bind_apply] at he
      cases hx : sys (h.state (.user 0)) t h.world with
      | err _ _ => rw [hx] at he; cases he
      | ub => rw [hx] at he; cases he
      | div => rw [hx] at he; cases he
      | ok v w =>
        rw [hx] at he
        have := key _ (by simp [Heap.putFlag, Heap.put_state_apply, mDxdt]) (by simp [Heap.putFlag, hl _ _ _ _ _ hx]) he
        exact ⟨fun _ => this.1, this.2⟩
    · rw [if_neg hc] at he
      have hf : h.flag mFirstCall = false := by simp at hc; exact hc.2
      have := key h rfl (hJ hf) he
      exact ⟨fun _ => this.1, this.2⟩
  · intro q x w y hq hf
    simpa [Heap.withWorld, Heap.set_state_apply, mDxdt] using hq hf

theorem controlledObject_keeps {tryStep : Loc → K → K → StepM K V W (TryOut K)} {J : Heap K V W → V → Prop} {P : V → Prop}
    (h : ∀ (h : Heap K V W) (t dt : K) r h', J h (h.state (.user 0)) → P (h.state (.user 0)) → tryStep (.user 0) t dt h = .ok r h' →
      J h' (h'.state (.user 0)) ∧ P (h'.state (.user 0)))
    (hJ : ∀ q x w y, J q x → J ((q.set (.user 0) y).withWorld w) x) :
    TryKeeps (controlledObject tryStep) J P := by
  intro q x t dt w l hq hx
  unfold Res.Keeps
  simp only [controlledObject]
  have e0 : ((q.set (.user 0) x).withWorld w).state (.user 0) = x := by
    simp [Heap.withWorld, Heap.set_state_apply]
  cases e : tryStep (.user 0) t dt ((q.set (.user 0) x).withWorld w) with
  | ok a h' =>
    obtain ⟨h1, h2⟩ := h _ t dt a h' (by rw [e0]; exact hJ q x w x hq) (by rw [e0]; exact hx) e
    exact ⟨h1, h2, rfl⟩
  | err _ _ => trivial
  | ub => trivial
  | div => trivial

/-- **C76**, controlled steppers, with any error checker, step adjuster and tolerances. -/
theorem controlled_linear_conserved (C : CtrlParams K V) (s : ErrorStepper K) (hw : s.WellFormed) (hl : InKernel l sys) (c : U) :
    ControlledConserves (controlledObject (K := K) fun x t dt => tryStep1 C s.errImpl sys x t dt) (fun _ => True) fun x => l x = c := by
  refine controlled_conserves (J := fun _ _ => True) (controlledObject_keeps (fun h t dt r h' _ hP he => ⟨trivial, ?_⟩) fun _ _ _ _ _ => trivial)
    fun _ _ _ _ => trivial
  have := Res.Keeps.of_computes (R := fun tr _ => ∀ y e d, tr = Trial.accepted y e d → l y = l (h.state (.user 0)))
    (try_step_contract C s hw sys 0 t dt h) ?_
  · rw [he] at this
    obtain ⟨tr, hv, hs⟩ := this
    rw [(hs _ (ownedBy_user _ _)).1]
    cases tr with
    | accepted y e d => simpa [Heap.setAll, Trial.inPlace, hv y e d rfl] using hP
    | rejected y e d => simpa [Heap.setAll, Trial.inPlace] using hP
    | limited d => simpa [Heap.setAll, Trial.inPlace] using hP
  · refine (hl.call _ _ _).bind fun k w hk => ?_
    unfold trial
    split
    · intro y e d h; cases h
    · refine (errRecipe_linear hl s _ k hk t dt w).bind fun r w hr => ?_
      by_cases hg : C.gtOne (C.checker.error (h.state (.user 0)) k r.2 dt).2 = true
      · rw [if_pos hg]
        intro y e d h; cases h
      · rw [if_neg hg]
        intro y e d h
        cases h
        exact hr

/-- **C76**, the controlled `runge_kutta_dopri5`, starting with a new or reset stepper. -/
theorem controlled_dopri5_linear_conserved (C : CtrlParams K V) (resized : Bool) (hl : InKernel l sys) (c : U) :
    ControlledConserves (controlledObject (K := K) fun x t dt => fsalTry1 C dopri5ErrImpl resized sys x t dt) (fun h => h.flag mCtrlFirst = true)
      fun x => l x = c := by
  refine controlled_conserves (J := fun h _ => h.flag mCtrlFirst = false → l (h.state mCtrlDxdt) = 0)
    (controlledObject_keeps (fun h t dt r h' hJ hP he => ?_) ?_) fun q x hq _ hq' => by rw [hq] at hq'; cases hq'
  · have key : ∀ g : Heap K V W, g.state (.user 0) = h.state (.user 0) → l (g.state mCtrlDxdt) = 0 →
        fsalTry3 C dopri5ErrImpl sys (.user 0) mCtrlDxdt t dt g = .ok r h' → l (h'.state mCtrlDxdt) = 0 ∧ l (h'.state (.user 0)) = c := by
      intro g g0 gd e
      have := Res.Keeps.of_computes (R := fun tr _ => ∀ y e d, tr = Trial.accepted y e d → l y.1 = l (h.state (.user 0)) ∧ l y.2 = 0)
        (fsalTry3_computes C dopri5ErrImpl dopri5ErrStep sys (.user 0) mCtrlDxdt t dt g (ownedBy_user _ _) (by simp [mCtrlDxdt, Loc.ownedBy])
          (fsalErr_val sys _ _ _ _ t dt g (ownedBy_user _ _) (by simp [mCtrlDxdt, Loc.ownedBy]) (by simp [mXnew, Loc.ownedBy])
            (by simp [mDxdtNew, Loc.ownedBy]) (by simp [mXnew, mDxdtNew]) (by simp [mXnew, mCtrlDxdt]))) ?_
      · rw [e] at this
        obtain ⟨tr, hv, hs⟩ := this
        rw [(hs mCtrlDxdt (by simp [mCtrlDxdt, Loc.ownedBy])).1, (hs (.user 0) (ownedBy_user _ _)).1]
        cases tr with
        | accepted y e d =>
          have := hv y e d rfl
          simp [Heap.setAll, Trial.inPlaceFsal, Heap.set_state_apply, mCtrlDxdt, this.1, this.2, hP]
        | rejected y e d => simp [Heap.setAll, Trial.inPlaceFsal, gd, g0, hP]
        | limited d => simp [Heap.setAll, Trial.inPlaceFsal, gd, g0, hP]
      · unfold fsalTrial
        split
        · intro y e d h; cases h
        · refine Res.Keeps.bind (R := fun r _ => l r.1.1 = l (h.state (.user 0)) ∧ l r.1.2 = 0) ?_ fun r w hr => ?_
          · rw [← g0]
            exact (dopri5Step_linear hl _ _ gd t dt _).bind fun r w hr => hr
          · by_cases hg : C.gtOne (C.checker.error (g.state (.user 0)) (g.state mCtrlDxdt) r.2 dt).2 = true
            · rw [if_pos hg]
              intro y e d h; cases h
            · rw [if_neg hg]
              intro y e d h
              cases h
              exact hr
    unfold fsalTry1 at he
    simp only [M.bind_apply, getFlag] at he
    by_cases hc : (resized || h.flag mCtrlFirst) = true
    · rw [if_pos hc] at he
      simp only [fsalCtrlInitialize, callSys, setFlag, M.bind_apply] at he
      cases hx : sys (h.state (.user 0)) t h.world with
      | err _ _ => rw [hx] at he; cases he
      | ub => rw [hx] at he; cases he
      | div => rw [hx] at he; cases he
      | ok v w =>
        rw [hx] at he
        have := key _ (by simp [Heap.putFlag, Heap.put_state_apply, mCtrlDxdt]) (by simp [Heap.putFlag, hl _ _ _ _ _ hx]) he
        exact ⟨fun _ => this.1, this.2⟩
    · rw [if_neg hc] at he
      have hf : h.flag mCtrlFirst = false := by simp at hc; exact hc.2
      have := key h rfl (hJ hf) he
      exact ⟨fun _ => this.1, this.2⟩
  · intro q x w y hq hf
    simpa [Heap.withWorld, Heap.set_state_apply, mCtrlDxdt] using hq hf

end bilinear

/-- A chemical reaction `A + B -> 2 B` with a time dependent rate: the total amount is conserved. -/
def totalAmount : (ℝ × ℝ) →ₗ[ℝ] ℝ := LinearMap.fst ℝ ℝ ℝ + LinearMap.snd ℝ ℝ ℝ

theorem reaction_inKernel (k : ℝ → ℝ) :
    InKernel totalAmount (countSys fun (x : ℝ × ℝ) t => (-(k t * x.1 * x.2), k t * x.1 * x.2) : Sys ℝ (ℝ × ℝ) ℕ) := by
  intro x t w v w' e
  obtain ⟨rfl, -⟩ := Res.ok.inj e
  simp [totalAmount]

example (k : ℝ → ℝ) (c : ℝ) : BasicConserves (stepperObject (K := ℝ) fun x t dt => doStep1 (ExplicitStepper.rk4 (K := ℝ)).impl
    (countSys fun (x : ℝ × ℝ) t => (-(k t * x.1 * x.2), k t * x.1 * x.2)) x t dt) (fun _ => True) fun x => totalAmount x = c :=
  explicit_linear_conserved .rk4 trivial (reaction_inKernel k) c

example (k : ℝ → ℝ) (c : ℝ) (C : CtrlParams ℝ (ℝ × ℝ)) : ControlledConserves (controlledObject (K := ℝ) fun x t dt =>
    fsalTry1 C dopri5ErrImpl false (countSys fun (x : ℝ × ℝ) t => (-(k t * x.1 * x.2), k t * x.1 * x.2)) x t dt)
    (fun h => h.flag mCtrlFirst = true) fun x => totalAmount x = c :=
  controlled_dopri5_linear_conserved C false (reaction_inKernel k) c

end Verif
