import Verif.Spec.Crash
import Verif.Spec.Steps
import Verif.Spec.ControlledRk

/-! # Lemmas for C86 -/

namespace Verif
variable {Q W S T K V α β σ : Type}

/-- After a return `R` holds, after an exception `E`. -/
def Res.Leaves (r : Res W α) (R : α → W → Prop) (E : Err → W → Prop) : Prop :=
  match r with
  | .ok a w => R a w
  | .err e w => E e w
  | .ub => True
  | .div => True

theorem Res.Leaves.mono {r : Res W α} {R R' : α → W → Prop} {E E' : Err → W → Prop} (h : r.Leaves R E) (hR : ∀ a w, R a w → R' a w)
    (hE : ∀ e w, E e w → E' e w) : r.Leaves R' E' := by
  cases r with
  | ok a w => exact hR _ _ h
  | err e w => exact hE _ _ h
  | ub => trivial
  | div => trivial

theorem Res.Leaves.bind {m : M W α} {f : α → M W β} {w : W} {R : α → W → Prop} {R' : β → W → Prop} {E : Err → W → Prop} (h : (m w).Leaves R E)
    (hf : ∀ a w', R a w' → (f a w').Leaves R' E) : ((m >>= f) w).Leaves R' E := by
  rw [M.bind_apply]
  cases hm : m w with
  | ok a w' => rw [hm] at h; exact hf a w' h
  | err e w' => rw [hm] at h; exact h
  | ub => trivial
  | div => trivial

theorem whileM_leaves {cond : σ → Bool} {body : σ → M W σ} (I : σ → W → Prop) {E : Err → W → Prop}
    (hbody : ∀ s w, I s w → cond s = true → (body s w).Leaves I E) {s : σ} {w : W} (h0 : I s w) :
    (whileM cond body s w).Leaves (fun s w => I s w ∧ cond s = false) E := by
  rcases whileM_div_or (cond := cond) (body := body) s w with ⟨n, hn⟩ | ⟨_, hd⟩
  · revert hn
    generalize whileM cond body s w = r
    induction n generalizing s w with
    | zero => intro hn; simp [whileF] at hn
    | succ n ih =>
      intro hn
      simp only [whileF] at hn
      split at hn
      · rename_i hc
        have hb := hbody s w h0 hc
        cases hbe : body s w with
        | ok s' w' => rw [hbe] at hn hb; exact ih hb hn
        | err e w' => rw [hbe] at hn hb; cases hn; exact hb
        | ub => rw [hbe] at hn; cases hn; trivial
        | div => rw [hbe] at hn; cases hn; trivial
      · rename_i hc
        cases hn
        exact ⟨h0, by simpa using hc⟩
  · rw [hd]; trivial

/-- `x` is reached from `x₀` by `k` steps, the `j`-th of which starts at time `g j` and satisfies `R`. -/
inductive Path (R : S → T → T → S → Prop) (g : ℕ → T) (dt : T) (x₀ : S) : ℕ → S → Prop
  | start : Path R g dt x₀ 0 x₀
  | step {k : ℕ} {x y : S} : Path R g dt x₀ k x → R x (g k) dt y → Path R g dt x₀ (k + 1) y

theorem Path.unique {Φ : S → T → T → S} {g : ℕ → T} {dt : T} {x₀ x y : S} {k : ℕ} (h : Path (fun x t dt y => y = Φ x t dt) g dt x₀ k x)
    (h' : Path (fun x t dt y => y = Φ x t dt) g dt x₀ k y) : x = y := by
  induction h generalizing y with
  | start => cases h'; rfl
  | step _ hr ih =>
    cases h' with
    | step h1 h2 => rw [hr, h2, ih h1]

theorem Path.append {R : S → T → T → S → Prop} {g : ℕ → T} {dt : T} {x₀ x y : S} {k m : ℕ} (h : Path R g dt x₀ k x)
    (h' : Path R (fun j => g (k + j)) dt x m y) : Path R g dt x₀ (k + m) y := by
  induction h' with
  | start => exact h
  | step _ hr ih => exact Path.step ih hr

theorem Path.congr {R : S → T → T → S → Prop} {g g' : ℕ → T} {dt : T} {x₀ x : S} {k : ℕ} (h : Path R g dt x₀ k x) (hg : ∀ j < k, g j = g' j) :
    Path R g' dt x₀ k x := by
  induction h with
  | start => exact .start
  | step _ hr ih => exact .step (ih fun j hj => hg j (by omega)) (hg _ (Nat.lt_succ_self _) ▸ hr)

theorem Path.exists {Φ : S → T → T → S} {g : ℕ → T} {dt : T} (x₀ : S) (k : ℕ) : ∃ x, Path (fun x t dt y => y = Φ x t dt) g dt x₀ k x := by
  induction k with
  | zero => exact ⟨_, .start⟩
  | succ k ih => obtain ⟨x, h⟩ := ih; exact ⟨_, h.step rfl⟩

/-- A step works on the caller's variable, and does not change it when it throws. -/
def SafeStep (R : S → T → T → S → Prop) (st : BasicStepper Q (Scene W S T) S T) : Prop :=
  ∀ q x t dt sc, sc.x = x → (st.doStep q x t dt sc).Leaves (fun r sc' => sc'.x = r.2 ∧ R x t dt r.2) (fun _ sc' => sc'.x = x ∧ sc'.seen = sc.seen)

theorem scene_observe (obs : Observer W S T) (x : S) (t : T) (sc : Scene W S T) :
    (sceneObserver obs x t sc).Leaves (fun _ sc' => sc'.x = sc.x ∧ sc'.seen.getLast? = some (x, t)) (fun _ sc' => sc'.x = sc.x ∧ sc'.seen.getLast? = some (x, t)) := by
  unfold sceneObserver
  cases obs x t sc.world <;> simp [Res.Leaves]

/-- The wreck after an exception in a run on the grid `g`, at a grid point that was reached. -/
def WreckAt (R : S → T → T → S → Prop) (g : ℕ → T) (dt : T) (x₀ : S) (ok : ℕ → Prop) (sc : Scene W S T) : Prop :=
  ∃ k, ok k ∧ Path R g dt x₀ k sc.x ∧ sc.LastSeen (g k)

variable {R : S → T → T → S → Prop} {st : BasicStepper Q (Scene W S T) S T} (obs : Observer W S T)

/-- One observation and one step of a loop over a grid. -/
theorem observe_step (hst : SafeStep R st) {g : ℕ → T} {dt : T} {x₀ : S} {ok : ℕ → Prop} {k : ℕ} {x : S} (hk : ok k) (hp : Path R g dt x₀ k x) (q : Q)
    (sc : Scene W S T) (hx : sc.x = x) :
    ((do sceneObserver obs x (g k); st.doStep q x (g k) dt : M (Scene W S T) (Q × S)) sc).Leaves
      (fun r sc' => sc'.x = r.2 ∧ Path R g dt x₀ (k + 1) r.2) (fun _ => WreckAt R g dt x₀ ok) := by
  refine Res.Leaves.bind ((scene_observe obs x (g k) sc).mono (fun _ _ h => h) ?_) ?_
  · rintro e sc' ⟨h1, h2⟩
    exact ⟨k, hk, by rw [h1, hx]; exact hp, by rw [Scene.LastSeen, h2, h1, hx]⟩
  · rintro - sc' ⟨h1, h2⟩
    refine (hst q x (g k) dt sc' (h1.trans hx)).mono (fun r w h => ⟨h.1, hp.step h.2⟩) ?_
    rintro e w ⟨h3, h4⟩
    exact ⟨k, hk, by rw [h3]; exact hp, by rw [Scene.LastSeen, h4, h2, h3]⟩

/-- The time at the beginning of the `k`-th step, as the loops compute it. -/
def loopTime (A : TimeArith T) (start dt : T) (k : ℕ) : T := if k = 0 then start else A.add start (A.nmul k dt)

@[simp] theorem loopTime_zero (A : TimeArith T) (start dt : T) : loopTime A start dt 0 = start := rfl
@[simp] theorem loopTime_succ (A : TimeArith T) (start dt : T) (k : ℕ) : loopTime A start dt (k + 1) = A.add start (A.nmul (k + 1) dt) := rfl

theorem n_steps_leaves (A : TimeArith T) (hst : SafeStep R st) (q : Q) (x₀ : S) (start dt : T) (n : ℕ) (sc : Scene W S T) (hx : sc.x = x₀) :
    (integrateNStepsBasic A st (sceneObserver obs) q x₀ start dt n sc).Leaves
      (fun r _ => Path R (loopTime A start dt) dt x₀ n r.1) (fun _ => WreckAt R (loopTime A start dt) dt x₀ (· ≤ n)) := by
  have key : ∀ m k (s : NState Q S T) (sc : Scene W S T), m + k = n → sc.x = s.x → Path R (loopTime A start dt) dt x₀ k s.x → s.time = loopTime A start dt k →
      (nStepsBasicLoop A st (sceneObserver obs) start dt m k s sc).Leaves
        (fun s' sc' => sc'.x = s'.x ∧ Path R (loopTime A start dt) dt x₀ n s'.x ∧ s'.time = loopTime A start dt n)
        (fun _ => WreckAt R (loopTime A start dt) dt x₀ (· ≤ n)) := by
    intro m
    induction m with
    | zero =>
      intro k s sc hk h1 h2 h3
      obtain rfl : k = n := by omega
      exact ⟨h1, h2, h3⟩
    | succ m ih =>
      intro k s sc hk h1 h2 h3
      have e : nStepsBasicLoop A st (sceneObserver obs) start dt (m + 1) k s = (do
          let r ← (do sceneObserver obs s.x (loopTime A start dt k); st.doStep s.q s.x (loopTime A start dt k) dt)
          nStepsBasicLoop A st (sceneObserver obs) start dt m (k + 1) ⟨r.1, r.2, A.add start (A.nmul (k + 1) dt)⟩) := by
        simp only [nStepsBasicLoop, bind_assoc, h3]
      rw [e]
      refine Res.Leaves.bind (observe_step obs hst (ok := (· ≤ n)) (by omega) h2 s.q sc h1) ?_
      rintro r sc' ⟨h4, h5⟩
      exact ih (k + 1) _ sc' (by omega) h4 h5 rfl
  unfold integrateNStepsBasic
  refine Res.Leaves.bind (key n 0 ⟨q, x₀, start⟩ sc (by omega) hx .start rfl) ?_
  rintro s sc' ⟨h1, h2, h3⟩
  refine Res.Leaves.bind ((scene_observe obs s.x s.time sc').mono (fun _ _ h => h) ?_) (fun _ _ _ => h2)
  rintro e sc'' ⟨h4, h5⟩
  exact ⟨n, le_rfl, by rw [h4, h1]; exact h2, by rw [Scene.LastSeen, h5, h4, h1, h3]⟩

theorem const_leaves (A : TimeArith T) (hst : SafeStep R st) (q : Q) (x₀ : S) (start end_ dt : T) (sc : Scene W S T) (hx : sc.x = x₀) :
    let ok : ℕ → Prop := fun k => ∀ j < k, A.lessEqWithSign (A.add (loopTime A start dt j) dt) end_ dt = true
    (integrateConstBasic A st (sceneObserver obs) q x₀ start end_ dt sc).Leaves
      (fun r sc' => sc'.x = r.1 ∧ Path R (loopTime A start dt) dt x₀ r.2 r.1 ∧ ok r.2 ∧ sc'.LastSeen (loopTime A start dt r.2) ∧
        A.lessEqWithSign (A.add (loopTime A start dt r.2) dt) end_ dt = false)
      (fun _ => WreckAt R (loopTime A start dt) dt x₀ ok) := by
  intro ok
  unfold integrateConstBasic
  refine Res.Leaves.bind (whileM_leaves (fun (s : ConstState Q S T) (sc : Scene W S T) => sc.x = s.x ∧ Path R (loopTime A start dt) dt x₀ s.step s.x ∧
    s.time = loopTime A start dt s.step ∧ ok s.step) ?_ ⟨hx, .start, rfl, by simp [ok]⟩) ?_
  · rintro s sc ⟨h1, h2, h3, h4⟩ hc
    have e : (do sceneObserver obs s.x s.time
                 let (q, x) ← st.doStep s.q s.x s.time dt
                 return ⟨q, x, A.add start (A.nmul (s.step + 1) dt), s.step + 1⟩ : M (Scene W S T) (ConstState Q S T)) = (do
        let r ← (do sceneObserver obs s.x (loopTime A start dt s.step); st.doStep s.q s.x (loopTime A start dt s.step) dt)
        return ⟨r.1, r.2, A.add start (A.nmul (s.step + 1) dt), s.step + 1⟩) := by
      simp only [bind_assoc, h3]
    show Res.Leaves ((do sceneObserver obs s.x s.time
                         let (q, x) ← st.doStep s.q s.x s.time dt
                         return ⟨q, x, A.add start (A.nmul (s.step + 1) dt), s.step + 1⟩ : M (Scene W S T) (ConstState Q S T)) sc) _ _
    rw [e]
    refine Res.Leaves.bind (observe_step obs hst h4 h2 s.q sc h1) ?_
    rintro r sc' ⟨h5, h6⟩
    refine ⟨h5, h6, rfl, fun j hj => ?_⟩
    rcases Nat.lt_succ_iff_lt_or_eq.1 hj with hj | rfl
    · exact h4 j hj
    · rw [← h3]; exact hc
  · rintro s sc' ⟨⟨h1, h2, h3, h4⟩, hc⟩
    refine Res.Leaves.bind ((scene_observe obs s.x s.time sc').mono (fun _ _ h => h) ?_) ?_
    · rintro e sc'' ⟨h5, h6⟩
      exact ⟨s.step, h4, by rw [h5, h1]; exact h2, by rw [Scene.LastSeen, h6, h5, h1, h3]⟩
    · rintro - sc'' ⟨h5, h6⟩
      exact ⟨h5.trans h1, h2, h4, by show sc''.LastSeen (loopTime A start dt s.step); rw [Scene.LastSeen, h6, h5, h1, h3], by rw [← h3]; exact hc⟩

theorem adaptive_leaves (A : TimeArith T) (hst : SafeStep R st) (q : Q) (x₀ : S) (start end_ dt : T) (sc : Scene W S T) (hx : sc.x = x₀) :
    let ok : ℕ → Prop := fun k => ∀ j < k, A.lessEqWithSign (A.add (loopTime A start dt j) dt) end_ dt = true
    (integrateAdaptiveBasic A st (sceneObserver obs) q x₀ start end_ dt sc).Leaves (fun _ _ => True)
      (fun _ sc' => WreckAt R (loopTime A start dt) dt x₀ ok sc' ∨
        ∃ k x, Path R (loopTime A start dt) dt x₀ k x ∧ ok k ∧ A.lessEqWithSign (A.add (loopTime A start dt k) dt) end_ dt = false ∧
          A.lessWithSign (A.add start (A.nmul k dt)) end_ dt = true ∧
          R x (A.add start (A.nmul k dt)) (A.sub end_ (A.add start (A.nmul k dt))) sc'.x ∧ sc'.LastSeen end_) := by
  intro ok
  unfold integrateAdaptiveBasic
  refine Res.Leaves.bind ((const_leaves obs A hst q x₀ start end_ dt sc hx).mono (fun _ _ h => h) fun _ _ h => Or.inl h) ?_
  rintro ⟨x, k⟩ sc' ⟨h1, h2, h3, h4, h5⟩
  simp only at h1 h2 h3 h4 h5 ⊢
  split
  · rename_i hc
    refine Res.Leaves.bind ((hst q x _ _ sc' h1).mono (fun _ _ h => h) ?_) ?_
    · rintro e sc'' ⟨h6, h7⟩
      exact Or.inl ⟨k, h3, by rw [h6]; exact h2, by rw [Scene.LastSeen, h7, h6, ← h1]; exact h4⟩
    · rintro ⟨q', y⟩ sc'' ⟨h6, h7⟩
      simp only at h6 h7
      refine Res.Leaves.bind ((scene_observe obs y end_ sc'').mono (fun _ _ _ => trivial) ?_) (fun _ _ _ => trivial)
      rintro e sc3 ⟨h8, h9⟩
      exact Or.inr ⟨k, x, h2, h3, h5, hc, by rw [h8, h6]; exact h7, by rw [Scene.LastSeen, h9, h8, h6]⟩
  · trivial

/-! ## Controlled steppers -/

/-- A trial works on the caller's variable, changes it only if it succeeds, and not when it throws; it throws nothing but exceptions of the user. -/
def SafeTry (ct : ControlledStepper Q (Scene W S T) S T) : Prop :=
  ∀ q x t dt sc, sc.x = x → (ct.tryStep q x t dt sc).Leaves
    (fun r sc' => sc'.x = r.x ∧ sc'.seen = sc.seen ∧ (r.success = false → r.x = x ∧ r.t = t)) (fun _ sc' => sc'.x = x ∧ sc'.seen = sc.seen)

theorem retryLoop_leaves {ct : ControlledStepper Q (Scene W S T) S T} (hct : SafeTry ct) (s : AdaptState Q S T) (sc : Scene W S T) (hx : sc.x = s.x)
    (hl : sc.LastSeen s.t) :
    (retryLoop ct s sc).Leaves (fun s' sc' => sc'.x = s'.x) (fun e sc' => e = .stepAdjustment ∨ sc'.LastSeen s.t) := by
  have body : ∀ (s₁ : AdaptState Q S T) (sc₁ : Scene W S T), s₁.t = s.t → sc₁.x = s₁.x → sc₁.LastSeen s.t →
      (retryBody ct s₁ sc₁).Leaves (fun s' sc' => sc'.x = s'.x ∧ (s'.success = false → s'.t = s.t ∧ sc'.LastSeen s.t))
        (fun e sc' => e = .stepAdjustment ∨ sc'.LastSeen s.t) := by
    intro s₁ sc₁ ht hx₁ hl₁
    unfold retryBody
    refine Res.Leaves.bind ((hct s₁.q s₁.x s₁.t s₁.dt sc₁ hx₁).mono (fun _ _ h => h) ?_) ?_
    · rintro e sc' ⟨h1, h2⟩
      exact Or.inr (by rw [Scene.LastSeen, h2, h1, ← hx₁]; exact hl₁)
    · rintro r sc' ⟨h1, h2, h3⟩
      unfold failedStepChecker
      split
      · exact Or.inl rfl
      · refine ⟨h1, fun hs => ?_⟩
        obtain ⟨h4, h5⟩ := h3 hs
        exact ⟨h5.trans ht, by rw [Scene.LastSeen, h2, h1, h4, ← hx₁]; exact hl₁⟩
  unfold retryLoop
  refine Res.Leaves.bind (body s sc rfl hx hl) ?_
  rintro s₁ sc₁ ⟨h1, h2⟩
  refine (whileM_leaves (fun (s' : AdaptState Q S T) (sc' : Scene W S T) => sc'.x = s'.x ∧ (s'.success = false → s'.t = s.t ∧ sc'.LastSeen s.t)) ?_
    ⟨h1, h2⟩).mono (fun _ _ h => h.1.1) (fun _ _ h => h)
  rintro s' sc' ⟨h3, h4⟩ hc
  obtain ⟨h5, h6⟩ := h4 (by simpa using hc)
  exact body s' sc' h5 h3 h6

theorem adaptive_controlled_leaves (A : TimeArith T) {ct : ControlledStepper Q (Scene W S T) S T} (hct : SafeTry ct) (q : Q) (x₀ : S) (start end_ dt : T)
    (sc : Scene W S T) (hx : sc.x = x₀) :
    (integrateAdaptiveControlled A ct (sceneObserver obs) q x₀ start end_ dt sc).Leaves (fun _ _ => True)
      (fun e sc' => e = .stepAdjustment ∨ ∃ t, sc'.LastSeen t) := by
  unfold integrateAdaptiveControlled
  refine Res.Leaves.bind (whileM_leaves (fun (p : AdaptState Q S T × ℕ) (sc : Scene W S T) => sc.x = p.1.x) ?_ hx) ?_
  · rintro p sc h1 -
    refine Res.Leaves.bind ((scene_observe obs p.1.x p.1.t sc).mono (fun _ _ h => h) ?_) ?_
    · rintro e sc' ⟨h2, h3⟩
      exact Or.inr ⟨p.1.t, by rw [Scene.LastSeen, h3, h2, h1]⟩
    · rintro - sc' ⟨h2, h3⟩
      refine Res.Leaves.bind ((retryLoop_leaves hct { p.1 with dt := clipDt A p.1.t end_ p.1.dt } sc' (h2.trans h1)
        (by rw [Scene.LastSeen, h3, h2, h1])).mono (fun _ _ h => h) fun e w h => h.imp_right fun h => ⟨_, h⟩) ?_
      exact fun _ _ h => h
  · rintro p sc' ⟨h1, -⟩
    refine Res.Leaves.bind ((scene_observe obs p.1.x p.1.t sc').mono (fun _ _ h => h) ?_) (fun _ _ _ => trivial)
    rintro e sc'' ⟨h2, h3⟩
    exact Or.inr ⟨p.1.t, by rw [Scene.LastSeen, h3, h2, h1]⟩

/-! ## Undisturbed runs -/

/-- Every step returns the value of `Φ`. -/
def StepsBy (Φ : S → T → T → S) (st : BasicStepper Q W S T) : Prop := ∀ q x t dt w, ∃ q' w', st.doStep q x t dt w = .ok (q', Φ x t dt) w'

/-- The observer always returns. -/
def Quiet (obs : Observer W S T) : Prop := ∀ x t w, ∃ w', obs x t w = .ok () w'

section
variable {Φ : S → T → T → S} {st : BasicStepper Q W S T} {obs : Observer W S T}

theorem n_steps_good (A : TimeArith T) (hst : StepsBy Φ st) (ho : Quiet obs) (q : Q) (x₀ : S) (start dt : T) (n : ℕ) (w : W) :
    ∃ x w', integrateNStepsBasic A st obs q x₀ start dt n w = .ok (x, loopTime A start dt n) w' ∧
      Path (fun x t dt y => y = Φ x t dt) (loopTime A start dt) dt x₀ n x := by
  have key : ∀ m k (s : NState Q S T) (w : W), m + k = n → Path (fun x t dt y => y = Φ x t dt) (loopTime A start dt) dt x₀ k s.x →
      s.time = loopTime A start dt k →
      ∃ s' w', nStepsBasicLoop A st obs start dt m k s w = .ok s' w' ∧ Path (fun x t dt y => y = Φ x t dt) (loopTime A start dt) dt x₀ n s'.x ∧
        s'.time = loopTime A start dt n := by
    intro m
    induction m with
    | zero =>
      intro k s w hk h1 h2
      obtain rfl : k = n := by omega
      exact ⟨s, w, rfl, h1, h2⟩
    | succ m ih =>
      intro k s w hk h1 h2
      obtain ⟨w1, e1⟩ := ho s.x s.time w
      obtain ⟨q2, w2, e2⟩ := hst s.q s.x s.time dt w1
      obtain ⟨s', w', e3, h3⟩ := ih (k + 1) ⟨q2, Φ s.x s.time dt, A.add start (A.nmul (k + 1) dt)⟩ w2 (by omega) (h1.step (by rw [h2])) rfl
      refine ⟨s', w', ?_, h3⟩
      rw [nStepsBasicLoop, M.bind_ok e1, M.bind_ok e2]
      exact e3
  obtain ⟨s, w1, e1, h1, h2⟩ := key n 0 ⟨q, x₀, start⟩ w (by omega) .start rfl
  obtain ⟨w2, e2⟩ := ho s.x s.time w1
  refine ⟨s.x, w2, ?_, h1⟩
  unfold integrateNStepsBasic
  rw [M.bind_ok e1, M.bind_ok e2, ← h2]
  rfl

theorem const_good (A : TimeArith T) (hst : StepsBy Φ st) (ho : Quiet obs) (q : Q) (x₀ : S) (start end_ dt : T) (n : ℕ) (w : W)
    (hgo : ∀ j < n, A.lessEqWithSign (A.add (loopTime A start dt j) dt) end_ dt = true)
    (hend : A.lessEqWithSign (A.add (loopTime A start dt n) dt) end_ dt = false) :
    ∃ x w', integrateConstBasic A st obs q x₀ start end_ dt w = .ok (x, n) w' ∧
      Path (fun x t dt y => y = Φ x t dt) (loopTime A start dt) dt x₀ n x := by
  have key : ∀ m (s : ConstState Q S T) (w : W), m + s.step = n → Path (fun x t dt y => y = Φ x t dt) (loopTime A start dt) dt x₀ s.step s.x →
      s.time = loopTime A start dt s.step →
      ∃ s' w', whileM (fun s : ConstState Q S T => A.lessEqWithSign (A.add s.time dt) end_ dt) (fun s => do
          obs s.x s.time
          let (q, x) ← st.doStep s.q s.x s.time dt
          return ⟨q, x, A.add start (A.nmul (s.step + 1) dt), s.step + 1⟩) s w = .ok s' w' ∧
        Path (fun x t dt y => y = Φ x t dt) (loopTime A start dt) dt x₀ n s'.x ∧ s'.step = n := by
    intro m
    induction m with
    | zero =>
      intro s w hk h1 h2
      refine ⟨s, w, whileM_stop ?_, ?_, by omega⟩
      · rw [h2, show s.step = n by omega]; exact hend
      · rw [show n = s.step by omega]; exact h1
    | succ m ih =>
      intro s w hk h1 h2
      obtain ⟨w1, e1⟩ := ho s.x s.time w
      obtain ⟨q2, w2, e2⟩ := hst s.q s.x s.time dt w1
      obtain ⟨s', w', e3, h3⟩ := ih ⟨q2, Φ s.x s.time dt, A.add start (A.nmul (s.step + 1) dt), s.step + 1⟩ w2 (by simp only; omega)
        (h1.step (by rw [h2])) rfl
      refine ⟨s', w', ?_, h3⟩
      rw [whileM_step_ok (s' := ⟨q2, Φ s.x s.time dt, A.add start (A.nmul (s.step + 1) dt), s.step + 1⟩) (w' := w2)]
      · exact e3
      · rw [h2]; exact hgo _ (by omega)
      · rw [M.bind_ok e1, M.bind_ok e2]; rfl
  obtain ⟨s, w1, e1, h1, h2⟩ := key n ⟨q, x₀, start, 0⟩ w (by simp) .start rfl
  obtain ⟨w2, e2⟩ := ho s.x s.time w1
  refine ⟨s.x, w2, ?_, h1⟩
  unfold integrateConstBasic
  rw [M.bind_ok e1, M.bind_ok e2, ← h2]
  rfl

end

end Verif
