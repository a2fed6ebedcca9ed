import Verif.Spec.Mpi
import Verif.Lemmas.Relational
import Verif.Spec.MultistepRun

/-! # Several nodes and the sequential program -/

set_option linter.unusedSectionVars false

namespace Verif
variable {K : Type} {N : ℕ}

/-- the collective operations of a run: the contributions of all nodes, and the result -/
abbrev CommTrace (N : ℕ) (K : Type) := List ((Fin N → Msg K) × Reply K)

/-- How the worlds of the nodes are related to that of the sequential program. -/
structure Sided (N : ℕ) (K : Type) (H : Type) (H' : Fin N → Type) where
  combine : List (Msg K) → Option (Reply K)
  rel : ∀ n, H → H' n → Prop
  port : ∀ n, H' n → Port K

section
variable {H : Type} {H' : Fin N → Type} {α β γ : Type} {β' γ' : Fin N → Type}

/-- `q` on node `n` with the communication `tr`, compared with the outcome `r` of the sequential program -/
def FollowsSeq (S : Sided N K H H') (O : ∀ n, β → β' n → Prop) (tr : CommTrace N K) (r : Res H β) (n : Fin N) (q : M (H' n) (β' n)) (h' : H' n) : Prop :=
  (∀ ρ, S.port n h' = ⟨tr.map Prod.snd ++ ρ, none⟩ → match r with
    | .ok b h1 => ∃ b' h1', q h' = .ok b' h1' ∧ O n b b' ∧ S.rel n h1 h1' ∧ S.port n h1' = ⟨ρ, none⟩
    | .err e h1 => ∃ h1', q h' = .err e h1' ∧ S.rel n h1 h1' ∧ S.port n h1' = ⟨ρ, none⟩
    | _ => True) ∧
  ∀ k (hk : k < tr.length), S.port n h' = ⟨(tr.take k).map Prod.snd, none⟩ →
    ∃ e h1', q h' = .err e h1' ∧ (S.port n h1').waiting = some (tr[k].1 n)

/-- `p` is executed jointly by the nodes, with programs in `Q`. -/
def Joint (S : Sided N K H H') (O : ∀ n, β → β' n → Prop) (p : M H β) (Q : ∀ n, M (H' n) (β' n) → Prop) : Prop :=
  ∀ h, ∃ tr : CommTrace N K, (∀ e ∈ tr, S.combine (List.ofFn e.1) = some e.2) ∧
    ∀ n h', S.rel n h h' → ∀ q, Q n q → FollowsSeq S O tr (p h) n q h'

variable {S : Sided N K H H'} {O : ∀ n, β → β' n → Prop} {O' : ∀ n, γ → γ' n → Prop}

theorem Joint.mono {p : M H β} {Q Q' : ∀ n, M (H' n) (β' n) → Prop} (h : Joint S O p Q) (hQ : ∀ n q, Q' n q → Q n q) : Joint S O p Q' := by
  intro w
  obtain ⟨tr, h1, h2⟩ := h w
  exact ⟨tr, h1, fun n h' hr q hq => h2 n h' hr q (hQ n q hq)⟩

theorem Joint.bind {p : M H β} {p' : β → M H γ} {Q : ∀ n, M (H' n) (β' n) → Prop} {Q' : β → ∀ n, M (H' n) (γ' n) → Prop}
    (h1 : Joint S O p Q) (h2 : ∀ b, Joint S O' (p' b) (Q' b)) :
    Joint S O' (p >>= p') fun n m => ∃ q q', m = q >>= q' ∧ Q n q ∧ ∀ b b', O n b b' → Q' b n (q' b') := by
  intro h
  obtain ⟨tr1, v1, f1⟩ := h1 h
  cases hp : p h with
  | ub =>
    refine ⟨[], by simp, fun n h' _ m _ => ⟨fun ρ _ => ?_, fun k hk => absurd hk (by simp)⟩⟩
    rw [M.bind_ub hp]; trivial
  | div =>
    refine ⟨[], by simp, fun n h' _ m _ => ⟨fun ρ _ => ?_, fun k hk => absurd hk (by simp)⟩⟩
    rw [M.bind_div hp]; trivial
  | err e w =>
    refine ⟨tr1, v1, ?_⟩
    rintro n h' hr m ⟨q, q', rfl, hq, hq'⟩
    obtain ⟨a1, a2⟩ := f1 n h' hr q hq
    rw [hp] at a1
    refine ⟨fun ρ hρ => ?_, fun k hk hρ => ?_⟩
    · obtain ⟨w', e1, r1, r2⟩ := a1 ρ hρ
      rw [M.bind_err hp]
      exact ⟨w', M.bind_err e1 _, r1, r2⟩
    · obtain ⟨e', w', e1, r1⟩ := a2 k hk hρ
      exact ⟨e', w', M.bind_err e1 _, r1⟩
  | ok b w =>
    obtain ⟨tr2, v2, f2⟩ := h2 b w
    refine ⟨tr1 ++ tr2, ?_, ?_⟩
    · intro e he
      rcases List.mem_append.1 he with he | he
      · exact v1 e he
      · exact v2 e he
    rintro n h' hr m ⟨q, q', rfl, hq, hq'⟩
    obtain ⟨a1, a2⟩ := f1 n h' hr q hq
    rw [hp] at a1
    rw [M.bind_ok hp]
    refine ⟨fun ρ hρ => ?_, fun k hk hρ => ?_⟩
    · rw [List.map_append, List.append_assoc] at hρ
      obtain ⟨b', w', e1, o1, r1, r2⟩ := a1 _ hρ
      rw [M.bind_ok e1]
      exact (f2 n w' r1 _ (hq' _ _ o1)).1 ρ r2
    · by_cases hlt : k < tr1.length
      · rw [List.take_append_of_le_length hlt.le] at hρ
        obtain ⟨e', w', e1, r1⟩ := a2 k hlt hρ
        refine ⟨e', w', M.bind_err e1 _, ?_⟩
        rw [List.getElem_append_left hlt]; exact r1
      · have hle : tr1.length ≤ k := not_lt.1 hlt
        rw [List.take_append, List.take_of_length_le hle, List.map_append] at hρ
        obtain ⟨b', w', e1, o1, r1, r2⟩ := a1 _ hρ
        have hk' : k - tr1.length < tr2.length := by rw [List.length_append] at hk; omega
        obtain ⟨e', w'', e2, r3⟩ := (f2 n w' r1 _ (hq' _ _ o1)).2 (k - tr1.length) hk' r2
        refine ⟨e', w'', by rw [M.bind_ok e1]; exact e2, ?_⟩
        rw [List.getElem_append_right hle]; exact r3

theorem Joint.silent {p : M H β} {Q : ∀ n, M (H' n) (β' n) → Prop}
    (hp : ∀ h n h', S.rel n h h' → S.port n h' = S.port n h' → ∀ q, Q n q → match p h with
      | .ok b h1 => ∃ b' h1', q h' = .ok b' h1' ∧ O n b b' ∧ S.rel n h1 h1' ∧ S.port n h1' = S.port n h'
      | .err e h1 => ∃ h1', q h' = .err e h1' ∧ S.rel n h1 h1' ∧ S.port n h1' = S.port n h'
      | _ => True) : Joint S O p Q := by
  intro h
  refine ⟨[], by simp, fun n h' hr q hq => ⟨fun ρ hρ => ?_, fun k hk => absurd hk (by simp)⟩⟩
  have := hp h n h' hr rfl q hq
  rw [hρ] at this
  simpa using this

theorem Joint.pure {b : β} {b' : ∀ n, β' n} (h : ∀ n, O n b (b' n)) :
    Joint S O (pure b) fun n m => m = Pure.pure (b' n) := by
  refine Joint.silent fun w n w' hr _ q hq => ?_
  subst hq
  exact ⟨_, _, rfl, h n, hr, rfl⟩

/-- loops -/
theorem Joint.whileM {σ : Type} {σ' : Fin N → Type} {I : ∀ n, σ → σ' n → Prop} {cond : σ → Bool} {cond' : ∀ n, σ' n → Bool} {p : σ → M H σ}
    {q : ∀ n, σ' n → M (H' n) (σ' n)} (hc : ∀ n s s', I n s s' → cond' n s' = cond s)
    (hb : ∀ s, Joint S I (p s) fun n m => ∃ s', I n s s' ∧ m = q n s') (s : σ) :
    Joint S I (whileM cond p s) fun n m => ∃ s', I n s s' ∧ m = Verif.whileM (cond' n) (q n) s' := by
  intro h
  rcases whileM_div_or (cond := cond) (body := p) s h with ⟨k, hk⟩ | ⟨_, hd⟩
  · -- finitely many iterations
    have key : ∀ k s h r, whileF cond p k s h = some r → ∃ tr : CommTrace N K, (∀ e ∈ tr, S.combine (List.ofFn e.1) = some e.2) ∧
        ∀ n h', S.rel n h h' → ∀ q', (∃ s', I n s s' ∧ q' = Verif.whileM (cond' n) (q n) s') → FollowsSeq S I tr r n q' h' := by
      intro k
      induction k with
      | zero => intro s h r hr; simp [whileF] at hr
      | succ k ih =>
        intro s h r hr
        by_cases hcs : cond s = true
        · -- one iteration, then the rest
          have hjoint : ∀ s1, Joint S I (fun w => (whileF cond p k s1 w).getD .div)
              fun n m => ∃ s', I n s1 s' ∧ m = Verif.whileM (cond' n) (q n) s' := by
            intro s1 w
            show ∃ tr : CommTrace N K, _ ∧ ∀ n h', S.rel n w h' → ∀ q', _ → FollowsSeq S I tr ((whileF cond p k s1 w).getD .div) n q' h'
            cases hw : whileF cond p k s1 w with
            | none => exact ⟨[], by simp, fun n h' _ m _ => ⟨fun ρ _ => trivial, fun j hj => absurd hj (by simp)⟩⟩
            | some r1 => exact ih s1 w r1 hw
          have hB := (hb s).bind hjoint h
          have hr' : (p s >>= fun s1 w => (whileF cond p k s1 w).getD .div) h = r := by
            rw [M.bind_apply]
            simp only [whileF, hcs, if_true] at hr
            cases hps : p s h with
            | ok s1 w1 => rw [hps] at hr; simp only at hr ⊢; rw [hr]; rfl
            | err e w1 => rw [hps] at hr; exact Option.some.inj hr
            | ub => rw [hps] at hr; exact Option.some.inj hr
            | div => rw [hps] at hr; exact Option.some.inj hr
          rw [hr'] at hB
          obtain ⟨tr, v, f⟩ := hB
          refine ⟨tr, v, fun n h' hrel q' hq' => ?_⟩
          obtain ⟨s', hI, rfl⟩ := hq'
          refine f n h' hrel _ ⟨q n s', Verif.whileM (cond' n) (q n), ?_, ⟨s', hI, rfl⟩, fun b b' hbb => ⟨b', hbb, rfl⟩⟩
          exact whileM_true ((hc n s s' hI).trans hcs)
        · have hcs' : cond s = false := by simpa using hcs
          simp only [whileF, hcs'] at hr
          obtain rfl := Option.some.inj hr
          refine ⟨[], by simp, ?_⟩
          rintro n h' hrel q' ⟨s', hI, rfl⟩
          refine ⟨fun ρ hρ => ?_, fun j hj => absurd hj (by simp)⟩
          rw [whileM_false ((hc n s s' hI).trans hcs')]
          exact ⟨s', h', rfl, hI, hrel, by simpa using hρ⟩
    exact key k s h _ hk
  · rw [hd]
    exact ⟨[], by simp, fun n h' _ m _ => ⟨fun ρ _ => trivial, fun j hj => absurd hj (by simp)⟩⟩

/-- the results are equal -/
theorem Joint.bindEq {p : M H β} {p' : β → M H γ} {q : ∀ n, M (H' n) β} {q' : ∀ n, β → M (H' n) (γ' n)}
    (h1 : Joint (β' := fun _ => β) S (fun _ => Eq) p fun n m => m = q n) (h2 : ∀ b, Joint S O' (p' b) fun n m => m = q' n b) :
    Joint S O' (p >>= p') fun n m => m = q n >>= q' n :=
  (h1.bind h2).mono fun n m hm => ⟨q n, q' n, hm, rfl, fun b b' hb => by rw [← hb]⟩

theorem Joint.pureEq (b : β) : Joint (β' := fun _ => β) S (fun _ => Eq) (Pure.pure b) fun _ m => m = Pure.pure b :=
  Joint.pure (b' := fun _ => b) fun _ => rfl

theorem Joint.ite {c : Prop} [Decidable c] {p p' : M H β} {q q' : ∀ n, M (H' n) (β' n)} (h1 : Joint S O p fun n m => m = q n)
    (h2 : Joint S O p' fun n m => m = q' n) : Joint S O (if c then p else p') fun n m => m = if c then q n else q' n := by
  split
  · exact h1
  · exact h2

end

/-! ## One step -/

section
variable {V W : Type} {U : Fin N → Type} {part : ∀ n, V → U n} {combine : List (Msg K) → Option (Reply K)}

/-- the heaps of the nodes contain the parts of the states -/
def heapSided (K W : Type) (part : ∀ n, V → U n) (combine : List (Msg K) → Option (Reply K)) :
    Sided N K (Heap K V W) fun n => Heap K (U n) (Port K) where
  combine := combine
  rel n := HeapRel (fun x y => part n x = y) fun _ _ => True
  port _ h := h.world

/-- the system functions of the nodes compute the parts of `f( x , t )` -/
def SysJoint (part : ∀ n, V → U n) (combine : List (Msg K) → Option (Reply K)) (f : V → K → V) (g : ∀ n, Sys K (U n) (Port K)) : Prop :=
  ∀ x t, ∃ tr : CommTrace N K, (∀ e ∈ tr, combine (List.ofFn e.1) = some e.2) ∧ ∀ n,
    (∀ ρ, g n (part n x) t ⟨tr.map Prod.snd ++ ρ, none⟩ = .ok (part n (f x t)) ⟨ρ, none⟩) ∧
    ∀ k (hk : k < tr.length), ∃ e w, g n (part n x) t ⟨(tr.take k).map Prod.snd, none⟩ = .err e w ∧ w.waiting = some (tr[k].1 n)

/-- the nodes execute `p` jointly, with programs `q n` -/
abbrev HeapJoint {α : Type} (part : ∀ n, V → U n) (combine : List (Msg K) → Option (Reply K)) (p : StepM K V W α)
    (q : ∀ n, StepM K (U n) (Port K) α) : Prop :=
  Joint (β' := fun _ => α) (heapSided K W part combine) (fun _ => Eq) p fun n m => m = q n

theorem HeapJoint.callSys {f : V → K → V} {g : ∀ n, Sys K (U n) (Port K)} (hs : SysJoint part combine f g) (src dst : Loc) (t : K) :
    HeapJoint (W := W) part combine (callSys (pureSys f) src dst t) fun n => callSys (g n) src dst t := by
  intro h
  obtain ⟨tr, v, F⟩ := hs (h.state src) t
  refine ⟨tr, v, ?_⟩
  rintro n h' hr q rfl
  obtain ⟨a1, a2⟩ := F n
  have hst : part n (h.state src) = h'.state src := HeapRel.state hr src
  refine ⟨fun ρ hρ => ?_, fun k hk hρ => ?_⟩
  · refine ⟨(), h'.put dst (part n (f (h.state src) t)) ⟨ρ, none⟩, ?_, rfl, HeapRel.put hr dst rfl trivial, rfl⟩
    have hw : h'.world = ⟨tr.map Prod.snd ++ ρ, none⟩ := hρ
    show Verif.callSys (g n) src dst t h' = _
    unfold Verif.callSys
    rw [hw, ← hst, a1]
  · have hw : h'.world = ⟨(tr.take k).map Prod.snd, none⟩ := hρ
    obtain ⟨e, w, e1, h1⟩ := a2 k hk
    refine ⟨e, h'.withWorld w, ?_, h1⟩
    show Verif.callSys (g n) src dst t h' = _
    unfold Verif.callSys
    rw [hw, ← hst, e1]

theorem HeapJoint.of_local {α : Type} {p : StepM K V W α} {q : ∀ n, StepM K (U n) (Port K) α} {F : Heap K V W → α × Heap K V W}
    {G : ∀ n, Heap K (U n) (Port K) → α × Heap K (U n) (Port K)} (hp : ∀ h, p h = .ok (F h).1 (F h).2) (hq : ∀ n h, q n h = .ok (G n h).1 (G n h).2)
    (hw : ∀ n h, (G n h).2.world = h.world)
    (hr : ∀ n h h', HeapRel (fun x y => part n x = y) (fun _ _ => True) h h' →
      (F h).1 = (G n h').1 ∧ HeapRel (fun x y => part n x = y) (fun _ _ => True) (F h).2 (G n h').2) : HeapJoint part combine p q := by
  refine Joint.silent fun h n h' hrel _ m hm => ?_
  subst hm
  rw [hp]
  exact ⟨_, _, hq n h', (hr n h h' hrel).1, (hr n h h' hrel).2, hw n h'⟩

variable [StateOps K V] [∀ n, StateOps K (U n)]

theorem HeapJoint.linTo (hS : ∀ n, LinClosed K fun (x : V) (y : U n) => part n x = y) (dst : Loc) (l : List (K × Loc)) :
    HeapJoint (W := W) part combine (linTo dst l) fun _ => linTo dst l :=
  HeapJoint.of_local (F := fun h => ((), h.set dst (lin (l.map fun p => (p.1, h.state p.2)))))
    (G := fun n h => ((), h.set dst (lin (l.map fun p => (p.1, h.state p.2))))) (fun _ => rfl) (fun _ _ => rfl) (fun _ _ => rfl)
    fun n h h' hr => ⟨rfl, hr.set dst ((hS n).heap hr l)⟩

theorem HeapJoint.copyTo (src dst : Loc) : HeapJoint (K := K) (W := W) part combine (copyTo src dst) fun _ => copyTo src dst :=
  HeapJoint.of_local (F := fun h => ((), h.set dst (h.state src))) (G := fun n h => ((), h.set dst (h.state src))) (fun _ => rfl) (fun _ _ => rfl)
    (fun _ _ => rfl) fun n h h' hr => ⟨rfl, hr.set dst (hr.state src)⟩

theorem HeapJoint.setFlag (l : Loc) (b : Bool) : HeapJoint (K := K) (W := W) part combine (setFlag l b) fun _ => setFlag l b :=
  HeapJoint.of_local (F := fun h => ((), h.putFlag l b)) (G := fun n h => ((), h.putFlag l b)) (fun _ => rfl) (fun _ _ => rfl)
    (fun _ _ => rfl) fun n h h' hr => ⟨rfl, ⟨hr.state, hr.num, by simp only [Heap.putFlag, hr.flag], hr.nat, trivial⟩⟩

theorem HeapJoint.getFlag (l : Loc) : HeapJoint (K := K) (W := W) part combine (getFlag l) fun _ => getFlag l :=
  HeapJoint.of_local (F := fun h => (h.flag l, h)) (G := fun n h => (h.flag l, h)) (fun _ => rfl) (fun _ _ => rfl)
    (fun _ _ => rfl) fun n h h' hr => ⟨by simp only [hr.flag], hr⟩

theorem HeapJoint.pure {α : Type} (a : α) : HeapJoint (K := K) (W := W) part combine (Pure.pure a) fun _ => Pure.pure a := Joint.pureEq a

theorem HeapJoint.bind {α β : Type} {p : StepM K V W α} {p' : α → StepM K V W β} {q : ∀ n, StepM K (U n) (Port K) α}
    {q' : ∀ n, α → StepM K (U n) (Port K) β} (h1 : HeapJoint part combine p q) (h2 : ∀ a, HeapJoint part combine (p' a) fun n => q' n a) :
    HeapJoint part combine (p >>= p') fun n => q n >>= q' n := Joint.bindEq h1 h2

theorem HeapJoint.ite {α : Type} {c : Prop} [Decidable c] {p p' : StepM K V W α} {q q' : ∀ n, StepM K (U n) (Port K) α}
    (h1 : HeapJoint part combine p q) (h2 : HeapJoint part combine p' q') :
    HeapJoint part combine (if c then p else p') fun n => if c then q n else q' n := Joint.ite h1 h2

/-- closes goals about straight-line programs -/
macro "run_joint" hS:ident hs:ident : tactic => `(tactic| repeat' first
  | exact HeapJoint.callSys $hs _ _ _
  | exact HeapJoint.linTo $hS _ _
  | exact HeapJoint.copyTo _ _
  | exact HeapJoint.setFlag _ _
  | exact HeapJoint.getFlag _
  | exact HeapJoint.pure _
  | assumption
  | (refine HeapJoint.bind ?_ fun _ => ?_)
  | (refine HeapJoint.ite ?_ ?_))

variable [Add K] [Sub K] [Mul K] [Div K] [IntCast K] [Neg K] {f : V → K → V} {g : ∀ n, Sys K (U n) (Port K)}

theorem calculateStage_joint (hS : ∀ n, LinClosed K fun (x : V) (y : U n) => part n x = y) (hs : SysJoint part combine f g) (count n : ℕ)
    (st : K × List K) (inp dxdt : Loc) (t : K) (out : Loc) (dt : K) :
    HeapJoint (W := W) part combine (calculateStage (pureSys f) count n st inp dxdt t out dt)
      fun m => calculateStage (g m) count n st inp dxdt t out dt := by
  unfold calculateStage
  run_joint hS hs

theorem runStages_joint (hS : ∀ n, LinClosed K fun (x : V) (y : U n) => part n x = y) (hs : SysJoint part combine f g) (count : ℕ)
    (inp dxdt : Loc) (t : K) (out : Loc) (dt : K) (l : List (K × List K)) : ∀ n,
    HeapJoint (W := W) part combine (runStages (pureSys f) count inp dxdt t out dt n l) fun m => runStages (g m) count inp dxdt t out dt n l := by
  induction l with
  | nil => exact fun n => HeapJoint.pure ()
  | cons st rest ih => exact fun n => (calculateStage_joint hS hs count n st inp dxdt t out dt).bind fun _ => ih (n + 1)

theorem errorStepper_joint (hS : ∀ n, LinClosed K fun (x : V) (y : U n) => part n x = y) (hs : SysJoint part combine f g) (s : ErrorStepper K)
    (inp dxdt : Loc) (t : K) (out : Loc) (dt : K) (e : Loc) :
    HeapJoint (W := W) part combine (s.errImpl (pureSys f) inp dxdt t out dt e) fun n => s.errImpl (g n) inp dxdt t out dt e := by
  have key : ∀ (T' : Tableau K) (b2 : List K), HeapJoint (W := W) part combine (genericErrRkImpl T' b2 (pureSys f) inp dxdt t out dt e)
      fun n => genericErrRkImpl T' b2 (g n) inp dxdt t out dt e := fun T' b2 =>
    (runStages_joint hS hs _ _ _ _ _ _ _ _).bind fun _ => HeapJoint.linTo hS _ _
  cases s with
  | generic T b2 => exact key _ _
  | cashKarp => exact key _ _
  | cashKarpClassic =>
    unfold ErrorStepper.errImpl cashKarpClassicErrImpl cashKarpClassicImpl
    run_joint hS hs
  | fehlberg => exact key _ _

theorem dopri5Err_joint (hS : ∀ n, LinClosed K fun (x : V) (y : U n) => part n x = y) (hs : SysJoint part combine f g)
    (inp dxdt : Loc) (t : K) (out dout : Loc) (dt : K) (e : Loc) :
    HeapJoint (W := W) part combine (dopri5ErrImpl (pureSys f) inp dxdt t out dout dt e) fun n => dopri5ErrImpl (g n) inp dxdt t out dout dt e := by
  unfold dopri5ErrImpl dopri5Impl
  run_joint hS hs


theorem HeapJoint.decide {α : Type} {p : StepM K V W α} {q q' : ∀ n, StepM K (U n) (Port K) α} (h : HeapJoint part combine p q) (e : ∀ n, q n = q' n) :
    HeapJoint part combine p q' := by
  obtain rfl : q = q' := funext e
  exact h

/-- the norm of the error -/
theorem checker_joint {P : CtrlParams K V} {P' : ∀ n, CtrlParams K (U n)} (hP : MpiParams part combine P P') (inp dxdt xerr : Loc) (dt : K) :
    HeapJoint (W := W) part combine (callChecker' P inp dxdt xerr dt) fun n => mpiCallChecker (P' n) inp dxdt xerr dt := by
  intro h
  refine ⟨[(fun n => .num ((P' n).checker.error (part n (h.state inp)) (part n (h.state dxdt)) (part n (h.state xerr)) dt).2,
    .num (P.checker.error (h.state inp) (h.state dxdt) (h.state xerr) dt).2)], ?_, ?_⟩
  · intro e he
    rw [List.mem_singleton] at he
    subst he
    exact hP.norm _ _ _ _
  rintro n h' hr q rfl
  have s1 := HeapRel.state hr inp
  have s2 := HeapRel.state hr dxdt
  have s3 := HeapRel.state hr xerr
  refine ⟨fun ρ hρ => ?_, fun k hk hρ => ?_⟩
  · have hw : h'.world = ⟨.num (P.checker.error (h.state inp) (h.state dxdt) (h.state xerr) dt).2 :: ρ, none⟩ := hρ
    refine ⟨_, (h'.set xerr ((P' n).checker.error (h'.state inp) (h'.state dxdt) (h'.state xerr) dt).1).withWorld ⟨ρ, none⟩, ?_, rfl, ?_, rfl⟩
    · show mpiCallChecker (P' n) inp dxdt xerr dt h' = _
      simp only [mpiCallChecker, allReduce, collective, hw, M.bind_apply, M.pure_apply]
    · have := HeapRel.set hr xerr (v := (P.checker.error (h.state inp) (h.state dxdt) (h.state xerr) dt).1)
        (u := ((P' n).checker.error (h'.state inp) (h'.state dxdt) (h'.state xerr) dt).1) (by rw [← s1, ← s2, ← s3]; exact hP.weights _ _ _ _ _)
      exact ⟨this.state, this.num, this.flag, this.nat, trivial⟩
  · obtain rfl : k = 0 := by simpa using hk
    have hw : h'.world = ⟨[], none⟩ := hρ
    refine ⟨.user 0, (h'.set xerr ((P' n).checker.error (h'.state inp) (h'.state dxdt) (h'.state xerr) dt).1).withWorld
      ⟨[], some (.num ((P' n).checker.error (h'.state inp) (h'.state dxdt) (h'.state xerr) dt).2)⟩, ?_, ?_⟩
    · show mpiCallChecker (P' n) inp dxdt xerr dt h' = _
      simp only [mpiCallChecker, allReduce, collective, hw, M.bind_apply]
    · rw [← s1, ← s2, ← s3]
      rfl

theorem MpiParams.decide_eq {P : CtrlParams K V} {P' : ∀ n, CtrlParams K (U n)} (hP : MpiParams part combine P P') (n : Fin N) (t dt e : K) :
    decide' (P' n) t dt e = decide' P t dt e := by
  unfold decide'
  rw [hP.gtOne, hP.adjuster, hP.errorOrder, hP.stepperOrder]

theorem mpiTryStep1_joint (hS : ∀ n, LinClosed K fun (x : V) (y : U n) => part n x = y) (hs : SysJoint part combine f g) {P : CtrlParams K V}
    {P' : ∀ n, CtrlParams K (U n)} (hP : MpiParams part combine P P') (s : ErrorStepper K) (x : Loc) (t dt : K) :
    HeapJoint (W := W) part combine (tryStep1 P s.errImpl (pureSys f) x t dt) fun n => mpiTryStep1 (P' n) s.errImpl (g n) x t dt := by
  have h8 : HeapJoint (W := W) part combine (doStep8 s.errImpl (pureSys f) x mCtrlDxdt t mXnew dt mXerr)
      fun n => doStep8 s.errImpl (g n) x mCtrlDxdt t mXnew dt mXerr := errorStepper_joint hS hs s _ _ _ _ _ _
  have h4 : HeapJoint (W := W) part combine (tryStep4 P s.errImpl (pureSys f) x mCtrlDxdt t mXnew dt)
      fun n => mpiTryStep4 (P' n) s.errImpl (g n) x mCtrlDxdt t mXnew dt := by
    refine HeapJoint.decide (q := fun n => if !P.adjuster.checkStepSizeLimit dt then Pure.pure ⟨false, t, P.adjuster.maxDt⟩ else
      doStep8 s.errImpl (g n) x mCtrlDxdt t mXnew dt mXerr >>= fun _ => mpiCallChecker (P' n) x mCtrlDxdt mXerr dt >>= fun e =>
        Pure.pure (decide' P t dt e)) ?_ ?_
    · unfold tryStep4
      exact (HeapJoint.pure _).ite (h8.bind fun _ => (checker_joint hP _ _ _ _).bind fun _ => HeapJoint.pure _)
    · intro n
      unfold mpiTryStep4
      rw [hP.adjuster n]
      simp only [hP.decide_eq]
  unfold tryStep1 tryStep2 mpiTryStep1
  refine (HeapJoint.callSys hs _ _ _).bind fun _ => h4.bind fun r => ?_
  run_joint hS hs

theorem mpiFsalTry1_joint (hS : ∀ n, LinClosed K fun (x : V) (y : U n) => part n x = y) (hs : SysJoint part combine f g) {P : CtrlParams K V}
    {P' : ∀ n, CtrlParams K (U n)} (hP : MpiParams part combine P P') (resized : Bool) (x : Loc) (t dt : K) :
    HeapJoint (W := W) part combine (fsalTry1 P dopri5ErrImpl resized (pureSys f) x t dt)
      fun n => mpiFsalTry1 (P' n) dopri5ErrImpl resized (g n) x t dt := by
  have h8 : HeapJoint (W := W) part combine (fsalStep8 dopri5ErrImpl (pureSys f) x mCtrlDxdt t mXnew mDxdtNew dt mXerr)
      fun n => fsalStep8 dopri5ErrImpl (g n) x mCtrlDxdt t mXnew mDxdtNew dt mXerr := by
    unfold fsalStep8
    exact (HeapJoint.setFlag _ _).bind fun _ => dopri5Err_joint hS hs _ _ _ _ _ _ _
  have h4 : HeapJoint (W := W) part combine (fsalTry4 P dopri5ErrImpl (pureSys f) x mCtrlDxdt t mXnew mDxdtNew dt)
      fun n => mpiFsalTry4 (P' n) dopri5ErrImpl (g n) x mCtrlDxdt t mXnew mDxdtNew dt := by
    refine HeapJoint.decide (q := fun n => if !P.adjuster.checkStepSizeLimit dt then Pure.pure ⟨false, t, P.adjuster.maxDt⟩ else
      fsalStep8 dopri5ErrImpl (g n) x mCtrlDxdt t mXnew mDxdtNew dt mXerr >>= fun _ => mpiCallChecker (P' n) x mCtrlDxdt mXerr dt >>= fun e =>
        Pure.pure (decide' P t dt e)) ?_ ?_
    · unfold fsalTry4
      exact (HeapJoint.pure _).ite (h8.bind fun _ => (checker_joint hP _ _ _ _).bind fun _ => HeapJoint.pure _)
    · intro n
      unfold mpiFsalTry4
      rw [hP.adjuster n]
      simp only [hP.decide_eq]
  unfold fsalTry1 fsalTry3 mpiFsalTry1 fsalCtrlInitialize
  refine (HeapJoint.getFlag _).bind fun b => ?_
  dsimp only
  run_joint hS hs

end
end Verif
