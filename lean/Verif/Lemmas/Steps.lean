import Verif.Spec.Steps
import Verif.Model.RungeKutta

namespace Verif
variable {K V W α β : Type}

@[simp] theorem Heap.set_state_self (h : Heap K V W) (l : Loc) (v : V) : (h.set l v).state l = v := by
  simp [Heap.set]

theorem Heap.set_state_ne (h : Heap K V W) {l l' : Loc} (v : V) (hne : l' ≠ l) :
    (h.set l v).state l' = h.state l' := by
  simp [Heap.set, hne]

@[simp] theorem Heap.set_num (h : Heap K V W) (l : Loc) (v : V) : (h.set l v).num = h.num := rfl
@[simp] theorem Heap.set_flag (h : Heap K V W) (l : Loc) (v : V) : (h.set l v).flag = h.flag := rfl
@[simp] theorem Heap.set_nat (h : Heap K V W) (l : Loc) (v : V) : (h.set l v).nat = h.nat := rfl
@[simp] theorem Heap.set_world (h : Heap K V W) (l : Loc) (v : V) : (h.set l v).world = h.world := rfl

@[simp] theorem Heap.put_state_self (h : Heap K V W) (l : Loc) (v : V) (w : W) : (h.put l v w).state l = v := by
  simp [Heap.put]

theorem Heap.put_state_ne (h : Heap K V W) {l l' : Loc} (v : V) (w : W) (hne : l' ≠ l) :
    (h.put l v w).state l' = h.state l' := by
  simp [Heap.put, hne]

theorem Heap.set_state_apply (h : Heap K V W) (l l' : Loc) (v : V) :
    (h.set l v).state l' = if l' = l then v else h.state l' := by
  simp [Heap.set, Function.update_apply]

theorem Heap.put_state_apply (h : Heap K V W) (l l' : Loc) (v : V) (w : W) :
    (h.put l v w).state l' = if l' = l then v else h.state l' := by
  simp [Heap.put, Function.update_apply]

@[simp] theorem Heap.put_num (h : Heap K V W) (l : Loc) (v : V) (w : W) : (h.put l v w).num = h.num := rfl
@[simp] theorem Heap.put_flag (h : Heap K V W) (l : Loc) (v : V) (w : W) : (h.put l v w).flag = h.flag := rfl
@[simp] theorem Heap.put_nat (h : Heap K V W) (l : Loc) (v : V) (w : W) : (h.put l v w).nat = h.nat := rfl
@[simp] theorem Heap.put_world (h : Heap K V W) (l : Loc) (v : V) (w : W) : (h.put l v w).world = w := rfl
@[simp] theorem Heap.withWorld_state (h : Heap K V W) (w : W) : (h.withWorld w).state = h.state := rfl
@[simp] theorem Heap.withWorld_world (h : Heap K V W) (w : W) : (h.withWorld w).world = w := rfl

theorem Heap.SameAt.refl (h : Heap K V W) (l : Loc) : h.SameAt h l := ⟨rfl, rfl, rfl, rfl⟩

theorem Heap.SameAt.trans {h₁ h₂ h₃ : Heap K V W} {l : Loc} (a : h₁.SameAt h₂ l) (b : h₂.SameAt h₃ l) :
    h₁.SameAt h₃ l :=
  ⟨b.1.trans a.1, b.2.1.trans a.2.1, b.2.2.1.trans a.2.2.1, b.2.2.2.trans a.2.2.2⟩

theorem Heap.SameAt.set_ne (h : Heap K V W) {l l' : Loc} (v : V) (hne : l' ≠ l) :
    h.SameAt (h.set l v) l' := ⟨h.set_state_ne v hne, rfl, rfl, rfl⟩

theorem Heap.SameAt.set {h h' : Heap K V W} {l' : Loc} (H : h.SameAt h' l') (l : Loc) (v : V) :
    (h.set l v).SameAt (h'.set l v) l' := by
  obtain ⟨a, b, c, d⟩ := H
  refine ⟨?_, b, c, d⟩
  by_cases hl : l' = l
  · subst hl; simp
  · rw [Heap.set_state_ne _ _ hl, Heap.set_state_ne _ _ hl, a]

theorem Heap.SameAt.setAll {h h' : Heap K V W} {l : Loc} (H : h.SameAt h' l) (outs : List (Loc × V)) :
    (h.setAll outs).SameAt (h'.setAll outs) l := by
  unfold Heap.setAll
  induction outs generalizing h h' with
  | nil => exact H
  | cons p ps ih => exact ih (H.set p.1 p.2)

@[simp] theorem Heap.setAll_nil (h : Heap K V W) : h.setAll [] = h := rfl
@[simp] theorem Heap.setAll_cons (h : Heap K V W) (p : Loc × V) (ps : List (Loc × V)) :
    h.setAll (p :: ps) = (h.set p.1 p.2).setAll ps := rfl

theorem callSys_apply (sys : Sys K V W) (src dst : Loc) (t : K) (h : Heap K V W) :
    callSys sys src dst t h = match sys (h.state src) t h.world with
      | .ok v w => .ok () (h.put dst v w)
      | .err e w => .err e (h.withWorld w)
      | .ub => .ub
      | .div => .div := rfl

theorem not_owned_ne {os : List Owner} {l d : Loc} (hl : ¬ l.ownedBy os) (hd : d.ownedBy os) : l ≠ d := by
  rintro rfl; exact hl hd

/-- A store to a private object. -/
theorem Implements.store [StateOps K V] {os : List Owner} {h : Heap K V W} {p : Unit → StepM K V W Unit}
    {spec : M W α} {outs : α → List (Loc × V)} {exc : List Loc} {dst : Loc} {l : List (K × Loc)} {v : V}
    (hd : dst.ownedBy os) (hv : lin (l.map fun q => (q.1, h.state q.2)) = v)
    (H : Implements os (h.set dst v) (p ()) spec outs exc) :
    Implements os h (linTo dst l >>= p) spec outs exc := by
  have hp : (linTo dst l >>= p) h = p () (h.set dst v) := by
    rw [M.bind_apply]; simp only [linTo, hv]
  unfold Implements at H ⊢
  rw [hp]
  simp only [Heap.set_world] at H
  cases hs : spec h.world with
  | ok a w =>
    rw [hs] at H
    obtain ⟨h', h1, h2, h3⟩ := H
    refine ⟨h', h1, h2, fun l hl => ?_⟩
    exact ((Heap.SameAt.set_ne h v (not_owned_ne hl hd)).setAll _).trans (h3 l hl)
  | err e w =>
    rw [hs] at H
    obtain ⟨h', h1, h2, h3⟩ := H
    exact ⟨h', h1, h2, fun l hl he => (Heap.SameAt.set_ne h v (not_owned_ne hl hd)).trans (h3 l hl he)⟩
  | ub => rw [hs] at H; exact H
  | div => rw [hs] at H; exact H

/-- A copy to a private object. -/
theorem Implements.copy {os : List Owner} {h : Heap K V W} {p : Unit → StepM K V W Unit}
    {spec : M W α} {outs : α → List (Loc × V)} {exc : List Loc} {dst src : Loc} {v : V}
    (hd : dst.ownedBy os) (hv : h.state src = v)
    (H : Implements os (h.set dst v) (p ()) spec outs exc) :
    Implements os h (copyTo src dst >>= p) spec outs exc := by
  have hp : (copyTo src dst >>= p) h = p () (h.set dst v) := by
    rw [M.bind_apply]; simp only [copyTo, hv]
  unfold Implements at H ⊢
  rw [hp]
  simp only [Heap.set_world] at H
  cases hs : spec h.world with
  | ok a w =>
    rw [hs] at H
    obtain ⟨h', h1, h2, h3⟩ := H
    refine ⟨h', h1, h2, fun l hl => ?_⟩
    exact ((Heap.SameAt.set_ne h v (not_owned_ne hl hd)).setAll _).trans (h3 l hl)
  | err e w =>
    rw [hs] at H
    obtain ⟨h', h1, h2, h3⟩ := H
    exact ⟨h', h1, h2, fun l hl he => (Heap.SameAt.set_ne h v (not_owned_ne hl hd)).trans (h3 l hl he)⟩
  | ub => rw [hs] at H; exact H
  | div => rw [hs] at H; exact H

/-- A call of the system function into a private object. -/
theorem Implements.sys {os : List Owner} {h : Heap K V W} {p : Unit → StepM K V W Unit}
    {f : Sys K V W} {spec : V → M W α} {outs : α → List (Loc × V)} {exc : List Loc} {src dst : Loc} {t : K}
    {x : V} (hd : dst.ownedBy os) (hx : h.state src = x)
    (H : ∀ k w, Implements os (h.put dst k w) (p ()) (spec k) outs exc) :
    Implements os h (callSys f src dst t >>= p) (f x t >>= spec) outs exc := by
  unfold Implements
  rw [M.bind_apply, M.bind_apply, callSys_apply, hx]
  cases hf : f x t h.world with
  | ok k w =>
    have := H k w
    unfold Implements at this
    simp only [Heap.put_world] at this ⊢
    cases hs : spec k w with
    | ok a w' =>
      rw [hs] at this
      obtain ⟨h', h1, h2, h3⟩ := this
      refine ⟨h', h1, h2, fun l hl => ?_⟩
      have e : h.SameAt (h.put dst k w) l :=
        ⟨h.put_state_ne k w (not_owned_ne hl hd), rfl, rfl, rfl⟩
      exact (e.setAll _).trans (h3 l hl)
    | err e w' =>
      rw [hs] at this
      obtain ⟨h', h1, h2, h3⟩ := this
      refine ⟨h', h1, h2, fun l hl he => ?_⟩
      have e : h.SameAt (h.put dst k w) l :=
        ⟨h.put_state_ne k w (not_owned_ne hl hd), rfl, rfl, rfl⟩
      exact e.trans (h3 l hl he)
    | ub => rw [hs] at this; exact this
    | div => rw [hs] at this; exact this
  | err e w => exact ⟨_, rfl, rfl, fun l _ _ => ⟨rfl, rfl, rfl, rfl⟩⟩
  | ub => rfl
  | div => rfl

/-- The final store. -/
theorem Implements.out [StateOps K V] {os : List Owner} {h : Heap K V W} {exc : List Loc} {dst : Loc}
    {l : List (K × Loc)} {v : V} (hv : lin (l.map fun q => (q.1, h.state q.2)) = v) :
    Implements os h (linTo dst l) (pure v : M W V) (fun v => [(dst, v)]) exc := by
  unfold Implements
  rw [M.pure_apply]
  exact ⟨h.set dst v, by simp only [linTo, hv], rfl, fun l _ => Heap.SameAt.refl _ _⟩

/-- The final two stores. -/
theorem Implements.out2 [StateOps K V] {os : List Owner} {h : Heap K V W} {exc : List Loc} {d₁ d₂ : Loc}
    {l₁ l₂ : List (K × Loc)} {v₁ v₂ : V} (h₁ : lin (l₁.map fun q => (q.1, h.state q.2)) = v₁)
    (h₂ : lin (l₂.map fun q => (q.1, (h.set d₁ v₁).state q.2)) = v₂) :
    Implements os h (linTo d₁ l₁ >>= fun _ => linTo d₂ l₂) (pure (v₁, v₂) : M W (V × V))
      (fun r => [(d₁, r.1), (d₂, r.2)]) exc := by
  unfold Implements
  rw [M.pure_apply]
  refine ⟨(h.set d₁ v₁).set d₂ v₂, ?_, rfl, fun l _ => Heap.SameAt.refl _ _⟩
  rw [M.bind_apply]
  simp only [linTo, h₁, h₂]

/-- Nothing left to do. -/
theorem Implements.ret {os : List Owner} {h : Heap K V W} {a : α} {outs : α → List (Loc × V)}
    {exc : List Loc} (H : ∀ l, ¬ l.ownedBy os → (h.setAll (outs a)).SameAt h l) :
    Implements os h (pure ()) (pure a : M W α) outs exc :=
  ⟨h, rfl, rfl, H⟩

/-- A store as the last action. -/
theorem Implements.lastStore [StateOps K V] {os : List Owner} {h : Heap K V W} {a : α}
    {outs : α → List (Loc × V)} {exc : List Loc} {dst : Loc} {l : List (K × Loc)} {v : V}
    (hv : lin (l.map fun q => (q.1, h.state q.2)) = v)
    (H : ∀ l, ¬ l.ownedBy os → (h.setAll (outs a)).SameAt (h.set dst v) l) :
    Implements os h (linTo dst l) (pure a : M W α) outs exc :=
  ⟨h.set dst v, by simp only [linTo, hv], rfl, H⟩

theorem setAll_set_sameAt (h : Heap K V W) {d : Loc} (v : V) {outs : List (Loc × V)}
    (hd : d ∈ outs.map Prod.fst) (l : Loc) : (h.setAll outs).SameAt ((h.set d v).setAll outs) l := by
  induction outs generalizing h v with
  | nil => simp at hd
  | cons p ps ih =>
    simp only [Heap.setAll_cons]
    by_cases hp : d = p.1
    · subst hp
      apply Heap.SameAt.setAll
      refine ⟨?_, rfl, rfl, rfl⟩
      simp only [Heap.set, Function.update_apply]
      split <;> rfl
    · have hd' : d ∈ ps.map Prod.fst := by
        simp only [List.map_cons, List.mem_cons, hp, false_or] at hd; exact hd
      have := ih (h.set p.1 p.2) v hd'
      refine this.trans ?_
      apply Heap.SameAt.setAll
      refine ⟨?_, rfl, rfl, rfl⟩
      simp only [Heap.set, Function.update_apply]
      split_ifs with h1 h2
      · exact absurd (h2.symm.trans h1) hp
      · rfl
      · rfl
      · rfl

theorem setAll_put_sameAt (h : Heap K V W) {d : Loc} (v : V) (w : W) {outs : List (Loc × V)}
    (hd : d ∈ outs.map Prod.fst) (l : Loc) : (h.setAll outs).SameAt ((h.put d v w).setAll outs) l :=
  (setAll_set_sameAt h v hd l).trans
    (Heap.SameAt.setAll (h := h.set d v) (h' := h.put d v w) ⟨rfl, rfl, rfl, rfl⟩ outs)

/-- A store to a visible object that is one of the results. -/
theorem Implements.vstore [StateOps K V] {os : List Owner} {h : Heap K V W} {p : Unit → StepM K V W Unit}
    {spec : M W α} {outs : α → List (Loc × V)} {exc : List Loc} {dst : Loc} {l : List (K × Loc)} {v : V}
    (he : dst ∈ exc) (ho : ∀ a, dst ∈ (outs a).map Prod.fst)
    (hv : lin (l.map fun q => (q.1, h.state q.2)) = v)
    (H : Implements os (h.set dst v) (p ()) spec outs exc) :
    Implements os h (linTo dst l >>= p) spec outs exc := by
  have hp : (linTo dst l >>= p) h = p () (h.set dst v) := by
    rw [M.bind_apply]; simp only [linTo, hv]
  unfold Implements at H ⊢
  rw [hp]
  simp only [Heap.set_world] at H
  cases hs : spec h.world with
  | ok a w =>
    rw [hs] at H
    obtain ⟨h', h1, h2, h3⟩ := H
    exact ⟨h', h1, h2, fun l hl => (setAll_set_sameAt h v (ho a) l).trans (h3 l hl)⟩
  | err e w =>
    rw [hs] at H
    obtain ⟨h', h1, h2, h3⟩ := H
    refine ⟨h', h1, h2, fun l hl hle => (Heap.SameAt.set_ne h v ?_).trans (h3 l hl hle)⟩
    rintro rfl; exact hle he
  | ub => rw [hs] at H; exact H
  | div => rw [hs] at H; exact H

/-- A call of the system function into a visible object that is one of the results. -/
theorem Implements.vsys {os : List Owner} {h : Heap K V W} {p : Unit → StepM K V W Unit}
    {f : Sys K V W} {spec : V → M W α} {outs : α → List (Loc × V)} {exc : List Loc} {src dst : Loc} {t : K}
    {x : V} (he : dst ∈ exc) (ho : ∀ a, dst ∈ (outs a).map Prod.fst) (hx : h.state src = x)
    (H : ∀ k w, Implements os (h.put dst k w) (p ()) (spec k) outs exc) :
    Implements os h (callSys f src dst t >>= p) (f x t >>= spec) outs exc := by
  unfold Implements
  rw [M.bind_apply, M.bind_apply, callSys_apply, hx]
  cases hf : f x t h.world with
  | ok k w =>
    have := H k w
    unfold Implements at this
    simp only [Heap.put_world] at this ⊢
    cases hs : spec k w with
    | ok a w' =>
      rw [hs] at this
      obtain ⟨h', h1, h2, h3⟩ := this
      exact ⟨h', h1, h2, fun l hl => (setAll_put_sameAt h k w (ho a) l).trans (h3 l hl)⟩
    | err e w' =>
      rw [hs] at this
      obtain ⟨h', h1, h2, h3⟩ := this
      refine ⟨h', h1, h2, fun l hl hle => ?_⟩
      have e : h.SameAt (h.put dst k w) l :=
        ⟨h.put_state_ne k w (by rintro rfl; exact hle he), rfl, rfl, rfl⟩
      exact e.trans (h3 l hl hle)
    | ub => rw [hs] at this; exact this
    | div => rw [hs] at this; exact this
  | err e w => exact ⟨_, rfl, rfl, fun l _ _ => ⟨rfl, rfl, rfl, rfl⟩⟩
  | ub => rfl
  | div => rfl

theorem Implements.congr_spec {os : List Owner} {h : Heap K V W} {p : StepM K V W Unit}
    {spec spec' : M W α} {outs : α → List (Loc × V)} {exc : List Loc}
    (H : Implements os h p spec outs exc) (e : spec = spec') : Implements os h p spec' outs exc := e ▸ H

theorem Implements.mono_own {os os' : List Owner} {h : Heap K V W} {p : StepM K V W Unit}
    {spec : M W α} {outs : α → List (Loc × V)} {exc : List Loc}
    (H : Implements os h p spec outs exc) (hos : ∀ o ∈ os, o ∈ os') : Implements os' h p spec outs exc := by
  have key : ∀ l : Loc, ¬ l.ownedBy os' → ¬ l.ownedBy os := by
    intro l hl hl'
    cases l with
    | user n => exact hl'
    | priv o i => exact hl (hos o hl')
  unfold Implements at *
  cases hs : spec h.world with
  | ok a w =>
    rw [hs] at H; obtain ⟨h', h1, h2, h3⟩ := H; exact ⟨h', h1, h2, fun l hl => h3 l (key l hl)⟩
  | err e w =>
    rw [hs] at H; obtain ⟨h', h1, h2, h3⟩ := H; exact ⟨h', h1, h2, fun l hl => h3 l (key l hl)⟩
  | ub => rw [hs] at H; exact H
  | div => rw [hs] at H; exact H

@[simp] theorem ownedBy_user (os : List Owner) (n : ℕ) : ¬ (Loc.user n).ownedBy os := fun h => h
theorem ownedBy_priv (os : List Owner) (o : Owner) (i : ℕ) : (Loc.priv o i).ownedBy os ↔ o ∈ os := Iff.rfl

/-- Sequencing: run an implemented call, then another one. -/
theorem Implements.bind {os : List Owner} {h : Heap K V W} {p : StepM K V W Unit} {q : Unit → StepM K V W Unit}
    {spec : M W α} {spec' : α → M W β} {outs : α → List (Loc × V)} {outs' : β → List (Loc × V)}
    {exc exc' : List Loc}
    (H : Implements os h p spec outs exc)
    (hexc : ∀ l ∈ exc, l ∈ exc')
    (H' : ∀ a w h', spec h.world = .ok a w → p h = .ok () h' → h'.world = w →
      (∀ l, ¬ l.ownedBy os → (h.setAll (outs a)).SameAt h' l) →
      Implements os h' (q ()) (spec' a) outs' exc' ∧
      (∀ b l, ¬ l.ownedBy os → (h.setAll (outs' b)).SameAt (h'.setAll (outs' b)) l) ∧
      (∀ l, ¬ l.ownedBy os → l ∉ exc' → h.SameAt h' l)) :
    Implements os h (p >>= q) (spec >>= spec') outs' exc' := by
  unfold Implements at H ⊢
  rw [M.bind_apply, M.bind_apply]
  cases hs : spec h.world with
  | ok a w =>
    rw [hs] at H
    obtain ⟨h', h1, h2, h3⟩ := H
    obtain ⟨i1, i2, i3⟩ := H' a w h' hs h1 h2 h3
    unfold Implements at i1
    simp only [h1]
    rw [h2] at i1
    cases hs' : spec' a w with
    | ok b w' =>
      rw [hs'] at i1
      obtain ⟨h'', j1, j2, j3⟩ := i1
      exact ⟨h'', j1, j2, fun l hl => (i2 b l hl).trans (j3 l hl)⟩
    | err e w' =>
      rw [hs'] at i1
      obtain ⟨h'', j1, j2, j3⟩ := i1
      exact ⟨h'', j1, j2, fun l hl he => (i3 l hl he).trans (j3 l hl he)⟩
    | ub => rw [hs'] at i1; exact i1
    | div => rw [hs'] at i1; exact i1
  | err e w =>
    rw [hs] at H
    obtain ⟨h', h1, h2, h3⟩ := H
    simp only [h1]
    exact ⟨h', rfl, h2, fun l hl he => h3 l hl (fun hx => he (hexc l hx))⟩
  | ub => rw [hs] at H; simp only [H]
  | div => rw [hs] at H; simp only [H]

theorem Heap.setAll_state_mem (h h' : Heap K V W) {l : Loc} {outs : List (Loc × V)}
    (hl : l ∈ outs.map Prod.fst) : (h'.setAll outs).state l = (h.setAll outs).state l := by
  induction outs generalizing h h' with
  | nil => simp at hl
  | cons p ps ih =>
    simp only [Heap.setAll_cons]
    by_cases hm : l ∈ ps.map Prod.fst
    · exact ih _ _ hm
    · have hp : l = p.1 := by
        simp only [List.map_cons, List.mem_cons, hm, or_false] at hl; exact hl
      have key : ∀ (ps : List (Loc × V)) (g : Heap K V W), l ∉ ps.map Prod.fst →
          (g.setAll ps).state l = g.state l := by
        intro ps
        induction ps with
        | nil => intro g _; rfl
        | cons q qs ih' =>
          intro g hg
          simp only [List.map_cons, List.mem_cons, not_or] at hg
          rw [Heap.setAll_cons, ih' _ hg.2, Heap.set_state_ne _ _ hg.1]
      rw [key _ _ hm, key _ _ hm, hp, Heap.set_state_self, Heap.set_state_self]

theorem Heap.setAll_state_notMem (h : Heap K V W) {l : Loc} {outs : List (Loc × V)}
    (hl : l ∉ outs.map Prod.fst) : (h.setAll outs).state l = h.state l := by
  induction outs generalizing h with
  | nil => rfl
  | cons q qs ih' =>
    simp only [List.map_cons, List.mem_cons, not_or] at hl
    rw [Heap.setAll_cons, ih' _ hl.2, Heap.set_state_ne _ _ hl.1]

theorem Heap.setAll_rest (h : Heap K V W) (outs : List (Loc × V)) :
    (h.setAll outs).num = h.num ∧ (h.setAll outs).flag = h.flag ∧ (h.setAll outs).nat = h.nat ∧
      (h.setAll outs).world = h.world := by
  induction outs generalizing h with
  | nil => exact ⟨rfl, rfl, rfl, rfl⟩
  | cons q qs ih => exact ih (h.set q.1 q.2)

/-- A call of another implemented function whose results are private or overwritten again. -/
theorem Implements.call {os₁ os : List Owner} {h : Heap K V W} {p : StepM K V W Unit}
    {q : Unit → StepM K V W Unit} {spec : M W α} {spec' : α → M W β} {outs₁ : α → List (Loc × V)}
    {outs : β → List (Loc × V)} {exc₁ exc : List Loc}
    (H : Implements os₁ h p spec outs₁ exc₁) (hos : ∀ o ∈ os₁, o ∈ os)
    (hexc : ∀ l ∈ exc₁, l.ownedBy os ∨ l ∈ exc)
    (hvis : ∀ a, ∀ d ∈ (outs₁ a).map Prod.fst, d.ownedBy os ∨ (d ∈ exc ∧ ∀ b, d ∈ (outs b).map Prod.fst))
    (H' : ∀ a h', spec h.world = .ok a h'.world → p h = .ok () h' →
      (∀ l, ¬ l.ownedBy os₁ → (h.setAll (outs₁ a)).SameAt h' l) →
      Implements os h' (q ()) (spec' a) outs exc) :
    Implements os h (p >>= q) (spec >>= spec') outs exc := by
  have key : ∀ l : Loc, ¬ l.ownedBy os → ¬ l.ownedBy os₁ := by
    intro l hl hl'
    cases l with
    | user n => exact hl'
    | priv o i => exact hl (hos o hl')
  unfold Implements at H ⊢
  rw [M.bind_apply, M.bind_apply]
  cases hs : spec h.world with
  | ok a w =>
    rw [hs] at H
    obtain ⟨h', h1, h2, h3⟩ := H
    have i1 := H' a h' (by rw [hs, h2]) h1 h3
    unfold Implements at i1
    simp only [h1]
    rw [h2] at i1
    have rest : ∀ l, ¬ l.ownedBy os → h'.num l = h.num l ∧ h'.flag l = h.flag l ∧ h'.nat l = h.nat l := by
      intro l hl
      obtain ⟨-, b1, b2, b3⟩ := h3 l (key l hl)
      obtain ⟨c1, c2, c3, -⟩ := h.setAll_rest (outs₁ a)
      rw [b1, b2, b3, c1, c2, c3]; exact ⟨rfl, rfl, rfl⟩
    cases hs' : spec' a w with
    | ok b w' =>
      rw [hs'] at i1
      obtain ⟨h'', j1, j2, j3⟩ := i1
      refine ⟨h'', j1, j2, fun l hl => Heap.SameAt.trans ?_ (j3 l hl)⟩
      obtain ⟨r1, r2, r3⟩ := rest l hl
      obtain ⟨c1, c2, c3, -⟩ := h.setAll_rest (outs b)
      obtain ⟨d1, d2, d3, -⟩ := h'.setAll_rest (outs b)
      refine ⟨?_, by rw [c1, d1, r1], by rw [c2, d2, r2], by rw [c3, d3, r3]⟩
      by_cases hm : l ∈ (outs b).map Prod.fst
      · exact Heap.setAll_state_mem _ _ hm
      · rw [Heap.setAll_state_notMem _ hm, Heap.setAll_state_notMem _ hm, (h3 l (key l hl)).1]
        apply Heap.setAll_state_notMem
        intro hm'
        rcases hvis a l hm' with ho | ⟨-, ho⟩
        · exact hl ho
        · exact hm (ho b)
    | err e w' =>
      rw [hs'] at i1
      obtain ⟨h'', j1, j2, j3⟩ := i1
      refine ⟨h'', j1, j2, fun l hl he => Heap.SameAt.trans ?_ (j3 l hl he)⟩
      obtain ⟨r1, r2, r3⟩ := rest l hl
      refine ⟨?_, r1, r2, r3⟩
      rw [(h3 l (key l hl)).1]
      apply Heap.setAll_state_notMem
      intro hm'
      rcases hvis a l hm' with ho | ⟨ho, -⟩
      · exact hl ho
      · exact he ho
    | ub => rw [hs'] at i1; exact i1
    | div => rw [hs'] at i1; exact i1
  | err e w =>
    rw [hs] at H
    obtain ⟨h', h1, h2, h3⟩ := H
    simp only [h1]
    refine ⟨h', rfl, h2, fun l hl he => h3 l (key l hl) fun hx => ?_⟩
    rcases hexc l hx with ho | ho
    · exact hl ho
    · exact he ho
  | ub => rw [hs] at H; simp only [H]
  | div => rw [hs] at H; simp only [H]

/-- Two implementations of the same recipe have the same outcome. -/
theorem Implements.sameOutcome {os₁ os₂ : List Owner} {h : Heap K V W} {p q : StepM K V W Unit}
    {spec : M W α} {outs₁ outs₂ : α → List (Loc × V)} {exc₁ exc₂ : List Loc} {o₁ o₂ : Loc}
    (H₁ : Implements os₁ h p spec outs₁ exc₁) (H₂ : Implements os₂ h q spec outs₂ exc₂)
    (n₁ : ¬ o₁.ownedBy os₁) (n₂ : ¬ o₂.ownedBy os₂)
    (ho : ∀ a, (h.setAll (outs₁ a)).state o₁ = (h.setAll (outs₂ a)).state o₂) :
    SameOutcome (p h) o₁ (q h) o₂ := by
  unfold Implements at H₁ H₂
  cases hs : spec h.world with
  | ok a w =>
    rw [hs] at H₁ H₂
    obtain ⟨h₁, a1, a2, a3⟩ := H₁
    obtain ⟨h₂, b1, b2, b3⟩ := H₂
    rw [a1, b1]
    refine ⟨?_, by rw [a2, b2]⟩
    rw [(a3 o₁ n₁).1, (b3 o₂ n₂).1, ho]
  | err e w =>
    rw [hs] at H₁ H₂
    obtain ⟨h₁, a1, a2, a3⟩ := H₁
    obtain ⟨h₂, b1, b2, b3⟩ := H₂
    rw [a1, b1]
    exact ⟨rfl, by rw [a2, b2]⟩
  | ub => rw [hs] at H₁ H₂; rw [H₁, H₂]; trivial
  | div => rw [hs] at H₁ H₂; rw [H₁, H₂]; trivial

/-- An implementation with a single visible result that never changes anything when it throws. -/
theorem Implements.onlyWrites {os : List Owner} {h : Heap K V W} {p : StepM K V W Unit} {spec : M W V}
    {out : Loc} (H : Implements os h p spec (fun v => [(out, v)]) []) : OnlyWrites h (p h) out := by
  unfold Implements at H
  cases hs : spec h.world with
  | ok a w =>
    rw [hs] at H
    obtain ⟨h₁, a1, a2, a3⟩ := H
    rw [a1]
    intro n hn
    rw [(a3 (.user n) (ownedBy_user _ _)).1]
    exact Heap.set_state_ne _ _ hn
  | err e w =>
    rw [hs] at H
    obtain ⟨h₁, a1, a2, a3⟩ := H
    rw [a1]
    intro n
    exact (a3 (.user n) (ownedBy_user _ _) (by simp)).1
  | ub => rw [hs] at H; rw [H]; trivial
  | div => rw [hs] at H; rw [H]; trivial

/-- Forget results, widen the set of private objects. -/
theorem Implements.weaken {os os' : List Owner} {h : Heap K V W} {p : StepM K V W Unit} {spec : M W α}
    {outs : α → List (Loc × V)} {outs' : β → List (Loc × V)} {exc exc' : List Loc} (f : α → β)
    (H : Implements os h p spec outs exc) (hos : ∀ o ∈ os, o ∈ os')
    (hout : ∀ a l, ¬ l.ownedBy os' → (h.setAll (outs' (f a))).SameAt (h.setAll (outs a)) l)
    (hexc : ∀ l, ¬ l.ownedBy os' → l ∉ exc' → l ∉ exc) :
    Implements os' h p (spec >>= fun a => pure (f a)) outs' exc' := by
  have key : ∀ l : Loc, ¬ l.ownedBy os' → ¬ l.ownedBy os := by
    intro l hl hl'
    cases l with
    | user n => exact hl'
    | priv o i => exact hl (hos o hl')
  unfold Implements at *
  rw [M.bind_apply]
  cases hs : spec h.world with
  | ok a w =>
    rw [hs] at H
    obtain ⟨h', h1, h2, h3⟩ := H
    exact ⟨h', h1, h2, fun l hl => (hout a l hl).trans (h3 l (key l hl))⟩
  | err e w =>
    rw [hs] at H
    obtain ⟨h', h1, h2, h3⟩ := H
    exact ⟨h', h1, h2, fun l hl he => h3 l (key l hl) (hexc l hl he)⟩
  | ub => rw [hs] at H; exact H
  | div => rw [hs] at H; exact H

end Verif
