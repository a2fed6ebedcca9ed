import Verif.Lemmas.Observers
import Verif.Spec.Checker

/-! Helper lemmas for C06. -/

namespace Verif
open SimCtx
variable {Q S T α V : Type}

theorem sinceObs_snoc (l : Log S T) (e : Event S T) :
    Log.sinceObs (l ++ [e]) =
      if e.isObs then 0 else (if e.isWork then l.sinceObs + 1 else l.sinceObs) := by
  unfold Log.sinceObs
  rw [List.reverse_append]
  simp only [List.reverse_cons, List.reverse_nil, List.nil_append, List.cons_append,
    List.takeWhile_cons]
  cases h : e.isObs with
  | true => simp
  | false =>
    simp only [Bool.not_false, if_true, List.countP_cons]
    cases e.isWork <;> simp

theorem within_snoc (m : ℕ) (l : Log S T) (e : Event S T) :
    Log.Within m (l ++ [e]) ↔ Log.Within m l ∧ Log.sinceObs (l ++ [e]) ≤ m := by
  constructor
  · intro h
    exact ⟨fun p hp => h p (hp.trans (List.prefix_append _ _)), h _ List.prefix_rfl⟩
  · rintro ⟨h1, h2⟩ p hp
    rcases List.prefix_concat_iff.mp hp with rfl | hp
    · exact h2
    · exact h1 p hp

theorem within_nil (m : ℕ) : Log.Within m ([] : Log S T) := by
  intro p hp
  rw [List.prefix_nil.mp hp]
  simp [Log.sinceObs]

/-- simulation of the unchecked run by the checked run -/
def checkCtx (m : ℕ) (log : V → Log S T) (Next : Log S T → Log S T → Prop) : SimCtx V (Log S T) where
  RE v l := log v = l
  X e v l0 := e = .noProgress ∧ Next (log v) l0 ∧ l0.sinceObs = m + 1
  E' a b := a <+: b
  refl _ := List.prefix_rfl
  trans := List.IsPrefix.trans

theorem checkedSpec_of_rel {m : ℕ} {log : V → Log S T} {Next : Log S T → Log S T → Prop}
    {R : α → α → V → Log S T → Prop} {r' : Res V α} {r : Res (Log S T) α}
    (hR : ∀ a a' v l, R a a' v l → a = a' ∧ log v = l ∧ l.Within m)
    (h : (checkCtx m log Next).Rel R r' r) : CheckedSpec m log Next r' r := by
  cases h with
  | ok h =>
    obtain ⟨rfl, rfl, hw⟩ := hR _ _ _ _ h
    constructor
    · rintro _ _ ⟨⟩; exact ⟨rfl, hw⟩
    · rintro _ _ ⟨⟩ _; exact ⟨_, rfl, rfl⟩
    · rintro _ _ ⟨⟩ h; exact absurd hw h
    · rintro _ _ ⟨⟩
    · rintro ⟨⟩
    · rintro ⟨⟩
  | err h =>
    have h : log _ = _ := h
    subst h
    constructor
    · rintro _ _ ⟨⟩
    · rintro _ _ ⟨⟩
    · rintro _ _ ⟨⟩
    · rintro _ _ ⟨⟩; exact .inl rfl
    · rintro ⟨⟩
    · rintro ⟨⟩
  | esc h hE =>
    obtain ⟨rfl, h1, h2⟩ := h
    constructor
    · rintro _ _ ⟨⟩
    · rintro _ l rfl hw
      have := hw _ hE
      omega
    · rintro _ l rfl _
      exact ⟨_, _, rfl, h1, h2, hE⟩
    · rintro _ _ ⟨⟩
      refine .inr ⟨rfl, _, h1, h2, ?_⟩
      cases r <;> exact hE
    · rintro ⟨⟩
    · rintro _; exact .inr ⟨_, _, rfl, h1, h2⟩
  | ub => constructor <;> simp
  | div => constructor <;> simp

/-- log and counter fit together -/
def checkW (m : ℕ) (p : Log S T × ℕ) (l : Log S T) : Prop :=
  p.1 = l ∧ p.2 = l.sinceObs ∧ l.Within m

def checkJ (m : ℕ) (q q' : Q) (p : Log S T × ℕ) (l : Log S T) : Prop := q = q' ∧ checkW m p l

/-- the checker throws right after the step -/
abbrev afterStep : Log S T → Log S T → Prop := fun p l => l = p
/-- the checker throws instead of making the step -/
abbrev beforeStep : Log S T → Log S T → Prop := fun p l => ∃ x t dt, l = p ++ [.step x t dt]

theorem log_mono {W α : Type} {m : ℕ} {log : W → Log S T} {Next} (f : M (Log S T) α)
    (h : ∀ l, (∃ l', l <+: l' ∧ ((∃ a, f l = .ok a l') ∨ ∃ e, f l = .err e l'))) :
    (checkCtx m log Next).Mono f := by
  constructor
  intro l
  obtain ⟨l', hp, ⟨a, h⟩ | ⟨e, h⟩⟩ := h l <;> rw [h] <;> exact hp

theorem record_mono {W : Type} {m : ℕ} {log : W → Log S T} {Next} (x : S) (t : T) :
    (checkCtx m log Next).Mono (record x t) :=
  log_mono _ fun l => ⟨l ++ [.obs x t], List.prefix_append _ _, .inl ⟨(), rfl⟩⟩

theorem logCall_mono {W α : Type} {m : ℕ} {log : W → Log S T} {Next} (e : Event S T)
    (r : Except Err α) : (checkCtx m log Next).Mono (logCall e r) :=
  log_mono _ fun l => ⟨l ++ [e], List.prefix_append _ _, by
    unfold logCall
    cases r
    · exact .inr ⟨_, rfl⟩
    · exact .inl ⟨_, rfl⟩⟩

theorem loggedBasic_mono {W : Type} {m : ℕ} {log : W → Log S T} {Next}
    (step : Q → S → T → T → Except Err (Q × S)) (q x t dt) :
    (checkCtx m log Next).Mono ((loggedBasic step).doStep q x t dt) :=
  log_mono _ fun l => ⟨l ++ [.step x t dt], List.prefix_append _ _, by
    unfold loggedBasic
    cases h : step q x t dt
    · right; exact ⟨_, by simp only [h]; rfl⟩
    · left; exact ⟨_, by simp only [h]; rfl⟩⟩

theorem loggedControlled_mono {W : Type} {m : ℕ} {log : W → Log S T} {Next}
    (f : Q → S → T → T → Except Err (TryResult Q S T)) (q x t dt) :
    (checkCtx m log Next).Mono ((loggedControlled f).tryStep q x t dt) :=
  log_mono _ fun l => by
    unfold loggedControlled
    cases h : f q x t dt with
    | error e => exact ⟨l, List.prefix_rfl, .inr ⟨_, by simp only [h]; rfl⟩⟩
    | ok r => exact ⟨l ++ [.tried x t dt r.success], List.prefix_append _ _, .inl ⟨_, by simp only [h]; rfl⟩⟩

theorem checked_obs_sim (m : ℕ) (Next : Log S T → Log S T → Prop) :
    ObsSim (checkCtx m (Prod.fst : Log S T × ℕ → _) Next) (checkJ (Q := Q) m) Eq Eq
      (checkedObserver' record) record where
  call := by
    rintro q _ x _ t _ ⟨l, c⟩ l' ⟨rfl, h1, h2, h3⟩ rfl rfl
    simp only at h1; subst h1
    have e1 : (checkedObserver' record : Observer (Log S T × ℕ) S T) x t (l, c) =
      .ok () (l ++ [.obs x t], 0) := rfl
    rw [e1]
    have e2 : Log.sinceObs (l ++ [.obs x t]) = 0 := by rw [sinceObs_snoc]; rfl
    exact .ok ⟨rfl, rfl, e2.symm, (within_snoc _ _ _).mpr ⟨h3, by omega⟩⟩
  mono := fun x t => record_mono x t

theorem checked_basic_sim (m : ℕ) (step : Q → S → T → T → Except Err (Q × S)) :
    BasicSim (checkCtx m (Prod.fst : Log S T × ℕ → _) afterStep) (checkJ m) Eq Eq Eq
      (checkedBasic m (loggedBasic step)) (loggedBasic step) where
  step := by
    rintro q _ x _ t _ d _ ⟨l, c⟩ l' ⟨rfl, h1, h2, h3⟩ rfl rfl rfl
    simp only at h1 h2; subst h1; subst h2
    have e2 : Log.sinceObs (l ++ [.step x t d]) = l.sinceObs + 1 := by rw [sinceObs_snoc]; rfl
    unfold checkedBasic
    simp only [M.bind_apply, M.onFst, loggedBasic]
    cases step q x t d with
    | error e => exact .err rfl
    | ok r =>
      simp only [callChecker]
      by_cases hc : l.sinceObs ≥ m
      · rw [if_pos hc]
        have := h3 l List.prefix_rfl
        exact Rel.esc (C := checkCtx m (Prod.fst : Log S T × ℕ → _) afterStep)
          (w0' := l ++ [Event.step x t d]) ⟨rfl, rfl, by omega⟩
          (show l ++ [Event.step x t d] <+: l ++ [Event.step x t d] from List.prefix_rfl)
      · rw [if_neg hc]
        exact .ok ⟨⟨rfl, rfl, e2.symm, (within_snoc _ _ _).mpr ⟨h3, by omega⟩⟩, rfl⟩
  mono := loggedBasic_mono step

theorem checked_dense_sim (m : ℕ) (p : PureDense Q S T) :
    DenseSim (checkCtx m (Prod.fst : Log S T × ℕ → _) beforeStep) (checkJ m) Eq Eq Eq
      (checkedDense m (loggedDense p)) (loggedDense p) where
  init := by
    rintro q _ x _ t _ d _ ⟨l, c⟩ l' ⟨rfl, h1, h2, h3⟩ rfl rfl rfl
    simp only at h1 h2; subst h1; subst h2
    have e2 : Log.sinceObs (l ++ [.init x t d]) = l.sinceObs := by rw [sinceObs_snoc]; rfl
    simp only [checkedDense, loggedDense, M.onFst, logCall]
    cases p.init q x t d with
    | error e => exact .err rfl
    | ok q' =>
      exact .ok ⟨rfl, rfl, e2.symm, (within_snoc _ _ _).mpr ⟨h3, e2 ▸ h3 l List.prefix_rfl⟩⟩
  step := by
    rintro q _ ⟨l, c⟩ l' ⟨rfl, h1, h2, h3⟩
    simp only at h1 h2; subst h1; subst h2
    have e2 : Log.sinceObs (l ++ [.step (p.curState q) (p.curTime q) (p.curDt q)]) =
      l.sinceObs + 1 := by rw [sinceObs_snoc]; rfl
    simp only [checkedDense, M.bind_apply, callChecker]
    by_cases hc : l.sinceObs ≥ m
    · rw [if_pos hc]
      have := h3 l List.prefix_rfl
      refine .esc (w0' := l ++ [.step (p.curState q) (p.curTime q) (p.curDt q)])
        ⟨rfl, ⟨_, _, _, rfl⟩, by omega⟩ ?_
      simp only [loggedDense, logCall]
      cases p.doStep q <;> exact List.prefix_rfl
    · rw [if_neg hc]
      simp only [loggedDense, M.onFst, logCall]
      cases p.doStep q with
      | error e => exact .err rfl
      | ok q' => exact .ok ⟨rfl, rfl, e2.symm, (within_snoc _ _ _).mpr ⟨h3, by omega⟩⟩
  calc_state := by
    rintro q _ t _ ⟨l, c⟩ l' ⟨rfl, h1, h2, h3⟩ rfl
    simp only at h1 h2; subst h1; subst h2
    have e2 : Log.sinceObs (l ++ [.calc t]) = l.sinceObs := by rw [sinceObs_snoc]; rfl
    simp only [checkedDense, loggedDense, M.onFst, logCall]
    cases p.calcState q t with
    | error e => exact .err rfl
    | ok q' =>
      exact .ok ⟨⟨rfl, rfl, e2.symm, (within_snoc _ _ _).mpr ⟨h3, e2 ▸ h3 l List.prefix_rfl⟩⟩, rfl⟩
  curState := by rintro q _ p l ⟨rfl, _⟩; rfl
  curTime := by rintro q _ p l ⟨rfl, _⟩; rfl
  curDt := by rintro q _ p l ⟨rfl, _⟩; rfl
  mono_init := fun _ _ _ _ => logCall_mono _ _
  mono_step := fun _ => logCall_mono _ _
  mono_calc := fun _ _ => logCall_mono _ _

/-- the world of a checked controlled stepper: the log, the stepper and the counter -/
abbrev ctrlLog (p : (Log S T × Q) × ℕ) : Log S T := p.1.1

/-- the checked stepper (in the world) is in a state equivalent to the unchecked one -/
def checkJC (m : ℕ) (E : Q → Q → Prop) (_ : Unit) (q : Q) (p : (Log S T × Q) × ℕ) (l : Log S T) : Prop :=
  E p.1.2 q ∧ checkW m (p.1.1, p.2) l

theorem checked_obs_sim' (m : ℕ) (E : Q → Q → Prop) (Next : Log S T → Log S T → Prop) :
    ObsSim (checkCtx m (ctrlLog (Q := Q)) Next) (checkJC m E) Eq Eq
      (checkedObserver (record (S := S) (T := T))) record where
  call := by
    rintro ⟨⟩ q' x _ t _ ⟨⟨l, q⟩, c⟩ l' ⟨hE, h1, h2, h3⟩ rfl rfl
    simp only at h1; subst h1
    have e1 : (checkedObserver record : Observer ((Log S T × Q) × ℕ) S T) x t ((l, q), c) =
      .ok () ((l ++ [.obs x t], q), 0) := rfl
    rw [e1]
    have e2 : Log.sinceObs (l ++ [.obs x t]) = 0 := by rw [sinceObs_snoc]; rfl
    exact .ok ⟨hE, rfl, e2.symm, (within_snoc _ _ _).mpr ⟨h3, by omega⟩⟩
  mono := fun x t => record_mono x t

theorem checked_ctrl_sim (m : ℕ) (E : Q → Q → Prop)
    (f : Q → S → T → T → Except Err (TryResult Q S T))
    (hf : ∀ q q' x t dt, E q q' →
      (∃ e, f q x t dt = .error e ∧ f q' x t dt = .error e) ∨
      (∃ r r', f q x t dt = .ok r ∧ f q' x t dt = .ok r' ∧ E r.q r'.q ∧ r.x = r'.x ∧ r.t = r'.t ∧
        r.dt = r'.dt ∧ r.success = r'.success)) :
    CtrlSim (checkCtx m (ctrlLog (Q := Q)) afterStep) (checkJC m E) Eq Eq Eq
      (checkedControlled m (loggedControlled f)) (loggedControlled f) where
  step := by
    rintro ⟨⟩ q' x _ t _ d _ ⟨⟨l, q⟩, c⟩ l' ⟨hE, h1, h2, h3⟩ rfl rfl rfl
    simp only at h1 h2 hE; subst h1; subst h2
    unfold checkedControlled
    simp only [loggedControlled]
    rcases hf q q' x t d hE with ⟨e, e1, e2⟩ | ⟨r, r', e1, e2, hq, hx, ht, hd, hs⟩
    · rw [e1, e2]; exact .err rfl
    · rw [e1, e2]
      simp only
      cases hsucc : r.success with
      | false =>
        rw [if_neg (by simp), ← hs, hsucc]
        have e3 : Log.sinceObs (l ++ [.tried x t d false]) = l.sinceObs := by rw [sinceObs_snoc]; rfl
        exact .ok ⟨⟨hq, rfl, e3.symm, (within_snoc _ _ _).mpr ⟨h3, e3 ▸ h3 l List.prefix_rfl⟩⟩, hx, ht,
          hd, by rw [← hs, hsucc]⟩
      | true =>
        rw [if_pos rfl, ← hs, hsucc]
        have e3 : Log.sinceObs (l ++ [.tried x t d true]) = l.sinceObs + 1 := by rw [sinceObs_snoc]; rfl
        simp only [M.bind_apply, callChecker]
        by_cases hc : l.sinceObs ≥ m
        · rw [if_pos hc]
          have := h3 l List.prefix_rfl
          exact Rel.esc (C := checkCtx m (ctrlLog (Q := Q)) afterStep)
            (w0' := l ++ [Event.tried x t d true]) ⟨rfl, rfl, by omega⟩
            (show l ++ [Event.tried x t d true] <+: l ++ [Event.tried x t d true] from
              List.prefix_rfl)
        · rw [if_neg hc]
          exact .ok ⟨⟨hq, rfl, e3.symm, (within_snoc _ _ _).mpr ⟨h3, by omega⟩⟩, hx, ht, hd,
            by rw [← hs, hsucc]⟩
  mono := loggedControlled_mono f

end Verif
