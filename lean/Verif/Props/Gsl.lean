import Verif.Spec.Gsl
import Verif.Lemmas.Algebra

/-!
# C79: states that are pointers to vectors of the GNU scientific library

* `gsl_history_partial`, `gsl_no_leak_partial`: without copies, every history is defined, every object has its own vector and
  none is left at the end,
* `gsl_copy_ub`: every copy of an object is undefined behaviour,
* `gsl_assign_double_free`, `gsl_assign_leaks`: so are assignment and destruction; and a vector is lost,
* `gsl_for_each`: the iterators visit the elements, also of vectors with a stride.
-/

namespace Verif
variable {K : Type}

theorem OwnVectors.start : OwnVectors (fun _ => none) (GslState.start (K := K)) :=
  ⟨id, fun _ _ => rfl, fun _ _ h => (nomatch h), fun _ _ h => absurd rfl h, fun _ _ h => (nomatch h), fun _ _ => rfl⟩

theorem OwnVectors.construct {z : Sizes} {s : GslState K} (h : OwnVectors z s) {o : ℕ} (ho : z o = none) :
    ∃ s', gslConstruct o s = .ok () s' ∧ OwnVectors (Function.update z o (some 1)) s' := by
  obtain ⟨owner, h1, h2, h3, h4, h5⟩ := h
  have hlt : ∀ o' n, z o' = some n → owner o' ≠ s.next := by
    intro o' n hn he
    obtain ⟨-, v, hv, -⟩ := h2 o' n hn
    rw [he, h5 _ (le_refl _)] at hv; cases hv
  refine ⟨_, rfl, Function.update owner o s.next, ?_, ?_, ?_, ?_, ?_⟩
  · intro o' ho'
    by_cases he : o' = o
    · subst he; simp at ho'
    · rw [Function.update_of_ne he] at ho'; simp only [Function.update_of_ne he]; exact h1 o' ho'
  · intro o' n hn
    by_cases he : o' = o
    · subst he
      simp only [Function.update_self, Option.some.injEq] at hn ⊢
      exact ⟨trivial, _, rfl, by simp [← hn]⟩
    · rw [Function.update_of_ne he] at hn
      simp only [Function.update_of_ne he]
      refine ⟨(h2 o' n hn).1, ?_⟩
      rw [Function.update_of_ne (hlt o' n hn)]
      exact (h2 o' n hn).2
  · intro o1 o2 n1 n2 he
    by_cases e1 : o1 = o <;> by_cases e2 : o2 = o
    · rw [e1, e2]
    · subst e1
      rw [Function.update_self, Function.update_of_ne e2] at he
      rw [Function.update_of_ne e2] at n2
      obtain ⟨n, hn⟩ := Option.ne_none_iff_exists'.mp n2
      exact absurd he.symm (hlt o2 n hn)
    · subst e2
      rw [Function.update_self, Function.update_of_ne e1] at he
      rw [Function.update_of_ne e1] at n1
      obtain ⟨n, hn⟩ := Option.ne_none_iff_exists'.mp n1
      exact absurd he (hlt o1 n hn)
    · rw [Function.update_of_ne e1, Function.update_of_ne e2] at he
      rw [Function.update_of_ne e1] at n1
      rw [Function.update_of_ne e2] at n2
      exact h3 _ _ n1 n2 he
  · intro a v hv
    by_cases ha : a = s.next
    · exact ⟨o, by simp, by simp [ha]⟩
    · simp only [Function.update_of_ne ha] at hv
      obtain ⟨o', hz, ho'⟩ := h4 a v hv
      have : o' ≠ o := fun e => hz (e ▸ ho)
      exact ⟨o', by rwa [Function.update_of_ne this], by rwa [Function.update_of_ne this]⟩
  · intro a ha
    have h6 : s.next + 1 ≤ a := ha
    show Function.update s.block s.next _ a = none
    rw [Function.update_of_ne (by omega)]
    exact h5 a (by omega)

theorem OwnVectors.destroy {z : Sizes} {s : GslState K} (h : OwnVectors z s) {o : ℕ} (ho : z o ≠ none) :
    ∃ s', gslDestroy o s = .ok () s' ∧ OwnVectors (Function.update z o none) s' := by
  obtain ⟨owner, h1, h2, h3, h4, h5⟩ := h
  obtain ⟨n, hn⟩ := Option.ne_none_iff_exists'.mp ho
  obtain ⟨hm, v, hv, -⟩ := h2 o n hn
  have e1 : gslMember o s = .ok (some (owner o)) s := by simp [gslMember, hm]
  have e2 : gslFree (some (owner o)) s = .ok () { s with block := Function.update s.block (owner o) none } := by
    simp [gslFree, hv]
  refine ⟨_, by rw [gslDestroy, M.bind_ok e1, M.bind_ok e2]; rfl, owner, ?_, ?_, ?_, ?_, ?_⟩
  · intro o' ho'
    by_cases he : o' = o
    · subst he; simp
    · rw [Function.update_of_ne he] at ho'; simp only [Function.update_of_ne he]; exact h1 o' ho'
  · intro o' n' hn'
    have he : o' ≠ o := by rintro rfl; simp at hn'
    rw [Function.update_of_ne he] at hn'
    simp only [Function.update_of_ne he]
    refine ⟨(h2 o' n' hn').1, ?_⟩
    rw [Function.update_of_ne (fun e => he (h3 _ _ (by rw [hn']; simp) ho e))]
    exact (h2 o' n' hn').2
  · intro o1 o2 n1 n2 he
    have e1 : o1 ≠ o := by rintro rfl; simp at n1
    have e2 : o2 ≠ o := by rintro rfl; simp at n2
    rw [Function.update_of_ne e1] at n1
    rw [Function.update_of_ne e2] at n2
    exact h3 _ _ n1 n2 he
  · intro a v' hv'
    have ha : a ≠ owner o := by rintro rfl; simp at hv'
    simp only [Function.update_of_ne ha] at hv'
    obtain ⟨o', hz, ho'⟩ := h4 a v' hv'
    have : o' ≠ o := by rintro rfl; exact ha ho'.symm
    exact ⟨o', by rwa [Function.update_of_ne this], ho'⟩
  · intro a ha
    show Function.update s.block (owner o) none a = none
    by_cases he : a = owner o
    · rw [he, Function.update_self]
    · rw [Function.update_of_ne he]; exact h5 a ha

theorem OwnVectors.resize {z : Sizes} {s : GslState K} (h : OwnVectors z s) {o : ℕ} (ho : z o ≠ none) (n : ℕ) :
    ∃ s', gslResize o n s = .ok () s' ∧ OwnVectors (Function.update z o (some n)) s' := by
  obtain ⟨owner, h1, h2, h3, h4, h5⟩ := h
  obtain ⟨k, hk⟩ := Option.ne_none_iff_exists'.mp ho
  obtain ⟨hm, v, hv, -⟩ := h2 o k hk
  have e1 : gslMember o s = .ok (some (owner o)) s := by simp [gslMember, hm]
  have e2 : gslFree (some (owner o)) s = .ok () { s with block := Function.update s.block (owner o) none } := by
    simp [gslFree, hv]
  have hlt : ∀ o' n, z o' = some n → owner o' ≠ s.next := by
    intro o' n hn he
    obtain ⟨-, v, hv, -⟩ := h2 o' n hn
    rw [he, h5 _ (le_refl _)] at hv; cases hv
  refine ⟨_, by rw [gslResize, M.bind_ok e1, M.bind_ok e2]; rfl, Function.update owner o s.next, ?_, ?_, ?_, ?_, ?_⟩
  · intro o' ho'
    by_cases he : o' = o
    · subst he; simp at ho'
    · rw [Function.update_of_ne he] at ho'; simp only [Function.update_of_ne he]; exact h1 o' ho'
  · intro o' n' hn'
    by_cases he : o' = o
    · subst he
      simp only [Function.update_self, Option.some.injEq] at hn' ⊢
      exact ⟨trivial, _, rfl, by simp [← hn']⟩
    · rw [Function.update_of_ne he] at hn'
      simp only [Function.update_of_ne he]
      refine ⟨(h2 o' n' hn').1, ?_⟩
      rw [Function.update_of_ne (hlt o' n' hn'), Function.update_of_ne (fun e => he (h3 _ _ (by rw [hn']; simp) ho e))]
      exact (h2 o' n' hn').2
  · intro o1 o2 n1 n2 he
    by_cases e1 : o1 = o <;> by_cases e2 : o2 = o
    · rw [e1, e2]
    · subst e1
      rw [Function.update_self, Function.update_of_ne e2] at he
      rw [Function.update_of_ne e2] at n2
      obtain ⟨n, hn⟩ := Option.ne_none_iff_exists'.mp n2
      exact absurd he.symm (hlt o2 n hn)
    · subst e2
      rw [Function.update_self, Function.update_of_ne e1] at he
      rw [Function.update_of_ne e1] at n1
      obtain ⟨n, hn⟩ := Option.ne_none_iff_exists'.mp n1
      exact absurd he (hlt o1 n hn)
    · rw [Function.update_of_ne e1, Function.update_of_ne e2] at he
      rw [Function.update_of_ne e1] at n1
      rw [Function.update_of_ne e2] at n2
      exact h3 _ _ n1 n2 he
  · intro a v' hv'
    by_cases ha : a = s.next
    · exact ⟨o, by simp, by simp [ha]⟩
    · simp only [Function.update_of_ne ha] at hv'
      have ha2 : a ≠ owner o := by rintro rfl; simp at hv'
      rw [Function.update_of_ne ha2] at hv'
      obtain ⟨o', hz, ho'⟩ := h4 a v' hv'
      have : o' ≠ o := by rintro rfl; exact ha2 ho'.symm
      exact ⟨o', by rwa [Function.update_of_ne this], by rwa [Function.update_of_ne this]⟩
  · intro a ha
    have h6 : s.next + 1 ≤ a := ha
    show Function.update (Function.update s.block (owner o) none) s.next _ a = none
    rw [Function.update_of_ne (by omega)]
    by_cases he : a = owner o
    · rw [he, Function.update_self]
    · rw [Function.update_of_ne he]; exact h5 a (by omega)

/-- C79 (partial: histories without copies): every history of construction, resizing and destruction that the language allows
is defined, and afterwards every object that exists has a vector of its own, of the expected size; there are no other
vectors. -/
theorem gsl_history_partial (ops : List GslOp) : ∀ (z : Sizes) (s : GslState K), OwnVectors z s → LegalHistory z ops →
    (∀ op ∈ ops, ¬op.IsCopy) → ∃ s', gslRun ops s = .ok () s' ∧ OwnVectors (finalSizes z ops) s' := by
  induction ops with
  | nil => intro z s h _ _; exact ⟨s, rfl, h⟩
  | cons op ops ih =>
    intro z s h hl hc
    have hstep : ∃ s', op.run s = .ok () s' ∧ OwnVectors (op.sizes z) s' := by
      have hc1 := hc op (by simp)
      cases op with
      | construct o => exact h.construct hl.1
      | resize o n => exact h.resize hl.1 n
      | destroy o => exact h.destroy hl.1
      | copy _ _ => exact absurd trivial hc1
      | assign _ _ => exact absurd trivial hc1
    obtain ⟨s1, hs1, ho1⟩ := hstep
    obtain ⟨s2, hs2, ho2⟩ := ih _ s1 ho1 hl.2 (fun op hop => hc op (by simp [hop]))
    exact ⟨s2, by rw [gslRun, M.bind_ok hs1, hs2], ho2⟩

/-- C79 (partial: histories without copies): if all objects are destroyed at the end of the program, no vector is left. -/
theorem gsl_no_leak_partial (ops : List GslOp) (hl : LegalHistory (fun _ => none) ops) (hc : ∀ op ∈ ops, ¬op.IsCopy)
    (hend : ∀ o, finalSizes (fun _ => none) ops o = none) :
    ∃ s', gslRun ops (GslState.start (K := K)) = .ok () s' ∧ ∀ a, s'.block a = none := by
  obtain ⟨s', hs, owner, -, -, -, h4, -⟩ := gsl_history_partial ops _ _ (OwnVectors.start (K := K)) hl hc
  refine ⟨s', hs, fun a => ?_⟩
  cases hb : s'.block a with
  | none => rfl
  | some v => obtain ⟨o, hz, -⟩ := h4 a v hb; exact absurd (hend o) hz

/-- Two temporaries of a stepper: construction, resizing, destruction. -/
example : ∃ s', gslRun [.construct 0, .construct 1, .resize 0 3, .resize 1 3, .destroy 1, .destroy 0]
    (GslState.start (K := K)) = .ok () s' ∧ ∀ a, s'.block a = none := by
  refine gsl_no_leak_partial _ ?_ ?_ ?_
  · simp [LegalHistory, GslOp.Legal, GslOp.sizes]
  · simp [GslOp.IsCopy]
  · intro o
    simp only [finalSizes, GslOp.sizes, Function.update_apply]
    by_cases h0 : o = 0
    · simp [h0]
    · by_cases h1 : o = 1 <;> simp [h0, h1]

/-- C79 is false for copies: every call of the copy constructor is undefined behaviour, in every state of the program
(it frees the pointer that has not been initialized).  The integrate functions take the stepper, with its temporaries, by
value. -/
theorem gsl_copy_ub (z : Sizes) (s : GslState K) (h : OwnVectors z s) (o src : ℕ) (hl : (GslOp.copy o src).Legal z) :
    gslCopy o src s = .ub := by
  obtain ⟨owner, -, h2, -, -, -⟩ := h
  obtain ⟨n, hn⟩ := Option.ne_none_iff_exists'.mp hl.2
  obtain ⟨hm, v, hv, -⟩ := h2 src n hn
  have hne : src ≠ o := by rintro rfl; rw [hl.1] at hn; cases hn
  have e0 : gslSetMember o (some none) s = .ok () { s with obj := Function.update s.obj o (some none) } := rfl
  have e1 : gslMember src { s with obj := Function.update s.obj o (some none) } =
      .ok (some (owner src)) { s with obj := Function.update s.obj o (some none) } := by
    simp [gslMember, Function.update_of_ne hne, hm]
  have e2 : gslSize (some (owner src)) { s with obj := Function.update s.obj o (some none) } =
      .ok v.length { s with obj := Function.update s.obj o (some none) } := by simp [gslSize, hv]
  have e3 : gslResize o v.length { s with obj := Function.update s.obj o (some none) } = .ub := by
    have : gslMember o { s with obj := Function.update s.obj o (some none) } =
      .ok none { s with obj := Function.update s.obj o (some none) } := by simp [gslMember]
    rw [gslResize, M.bind_ok this]; rfl
  rw [gslCopy, M.bind_ok e0, M.bind_ok e1, M.bind_ok e2, M.bind_ub e3]

/-- C79: a legal copy in a reachable state: the program `construct 0; copy 1 from 0`. -/
example : gslRun [.construct 0, .copy 1 0] (GslState.start (K := K)) = .ub := by
  obtain ⟨s, hs, ho⟩ := OwnVectors.construct (K := K) OwnVectors.start (o := 0) rfl
  have h0 : GslOp.run (.construct 0) (GslState.start (K := K)) = .ok () s := hs
  have h1 : GslOp.run (.copy 1 0) s = .ub := gsl_copy_ub _ s ho 1 0 ⟨by simp, by simp⟩
  rw [gslRun, M.bind_ok h0, gslRun, M.bind_ub h1]

/-- C79 is false for assignments: after `o = src` the two objects share a vector, and the program is undefined when both are
destroyed, in every state of the program. -/
theorem gsl_assign_double_free (z : Sizes) (s : GslState K) (h : OwnVectors z s) (o src : ℕ) (hne : o ≠ src)
    (hl : (GslOp.assign o src).Legal z) : gslRun [.assign o src, .destroy src, .destroy o] s = .ub := by
  obtain ⟨owner, -, h2, -, -, -⟩ := h
  obtain ⟨n, hn⟩ := Option.ne_none_iff_exists'.mp hl.2
  obtain ⟨hm, v, hv, -⟩ := h2 src n hn
  have e0 : GslOp.run (.assign o src) s = .ok () { s with obj := Function.update s.obj o (some (some (owner src))) } := by
    have : gslMember src s = .ok (some (owner src)) s := by simp [gslMember, hm]
    show gslAssign o src s = _
    rw [gslAssign, M.bind_ok this]; rfl
  set s1 : GslState K := { s with obj := Function.update s.obj o (some (some (owner src))) } with hs1
  have e1 : GslOp.run (.destroy src) s1 = .ok ()
      { s1 with block := Function.update s.block (owner src) none, obj := Function.update s1.obj src none } := by
    have m1 : gslMember src s1 = .ok (some (owner src)) s1 := by
      simp [gslMember, hs1, Function.update_of_ne hne.symm, hm]
    have m2 : gslFree (some (owner src)) s1 = .ok () { s1 with block := Function.update s1.block (owner src) none } := by
      have : s1.block (owner src) = some v := hv
      simp [gslFree, this]
    show gslDestroy src s1 = _
    rw [gslDestroy, M.bind_ok m1, M.bind_ok m2]; rfl
  have e2 : GslOp.run (.destroy o)
      { s1 with block := Function.update s.block (owner src) none, obj := Function.update s1.obj src none } = .ub := by
    set s2 : GslState K :=
      { s1 with block := Function.update s.block (owner src) none, obj := Function.update s1.obj src none } with hs2
    have m1 : gslMember o s2 = .ok (some (owner src)) s2 := by
      simp [gslMember, hs2, hs1, Function.update_of_ne hne]
    have m2 : gslFree (some (owner src)) s2 = .ub := by simp [gslFree, hs2]
    show gslDestroy o s2 = _
    rw [gslDestroy, M.bind_ok m1, M.bind_ub m2]
  rw [gslRun, M.bind_ok e0, gslRun, M.bind_ok e1, gslRun, M.bind_ub e2]

/-- C79: and the vector that the object had before is lost: no object refers to it any more. -/
theorem gsl_assign_leaks (z : Sizes) (s : GslState K) (h : OwnVectors z s) (o src : ℕ) (hne : o ≠ src)
    (hl : (GslOp.assign o src).Legal z) :
    ∃ s' a v, gslRun [.assign o src] s = .ok () s' ∧ s'.block a = some v ∧ ∀ o', s'.obj o' ≠ some (some a) := by
  obtain ⟨owner, h1, h2, h3, -, -⟩ := h
  obtain ⟨n, hn⟩ := Option.ne_none_iff_exists'.mp hl.2
  obtain ⟨k, hk⟩ := Option.ne_none_iff_exists'.mp hl.1
  obtain ⟨hm, -⟩ := h2 src n hn
  obtain ⟨-, v, hv, -⟩ := h2 o k hk
  have e0 : GslOp.run (.assign o src) s = .ok () { s with obj := Function.update s.obj o (some (some (owner src))) } := by
    have : gslMember src s = .ok (some (owner src)) s := by simp [gslMember, hm]
    show gslAssign o src s = _
    rw [gslAssign, M.bind_ok this]; rfl
  refine ⟨{ s with obj := Function.update s.obj o (some (some (owner src))) }, owner o, v,
    by rw [gslRun, M.bind_ok e0]; rfl, hv, ?_⟩
  intro o' ho'
  by_cases he : o' = o
  · subst he
    simp only [Function.update_self, Option.some.injEq] at ho'
    exact hne (h3 _ _ hl.1 hl.2 ho'.symm)
  · simp only [Function.update_of_ne he] at ho'
    cases hz : z o' with
    | none => rw [h1 o' hz] at ho'; cases ho'
    | some m =>
      rw [(h2 o' m hz).1] at ho'
      simp only [Option.some.injEq] at ho'
      exact he (h3 _ _ (by rw [hz]; simp) hl.1 ho')

/-- C79: the two objects of the last theorems, in a state that a program reaches. -/
example : ∃ s : GslState K, gslRun [.construct 0, .construct 1] GslState.start = .ok () s ∧
    gslRun [.assign 0 1, .destroy 1, .destroy 0] s = .ub := by
  obtain ⟨s, hs, ho⟩ := gsl_history_partial [.construct 0, .construct 1] _ _ (OwnVectors.start (K := K))
    (by simp [LegalHistory, GslOp.Legal, GslOp.sizes]) (by simp [GslOp.IsCopy])
  exact ⟨s, hs, gsl_assign_double_free _ s ho 0 1 (by simp)
    (by simp [GslOp.Legal, finalSizes, GslOp.sizes, Function.update_apply])⟩

/-! ## The iterators -/

/-- C79: `for_each2` with the iterators of two vectors calls `op` for the elements `i = 0, ..., size - 1`, each once and in
order; element `i` is the one at `data + i * stride`, as in the library, and the vectors may have different strides. -/
theorem gsl_for_each {S : Type} (op : ℕ → ℕ → M S Unit) (v u : GslVector) (hv : 0 < v.stride) :
    gslForEach2 op v u =
      (List.range v.size).forM fun i => op (v.data + i * v.stride) (u.data + i * u.stride) := by
  have key : ∀ k i, i + k = v.size →
      whileM (fun i : GslIter × GslIter => !i.1.equal v.end_)
        (fun i => do op i.1.p i.2.p; pure (i.1.increment, i.2.increment))
        ((⟨v.data + i * v.stride, v.stride⟩ : GslIter), (⟨u.data + i * u.stride, u.stride⟩ : GslIter)) =
      ((List.range' i k).forM fun i => op (v.data + i * v.stride) (u.data + i * u.stride)) >>= fun _ =>
        pure (v.end_, (⟨u.data + v.size * u.stride, u.stride⟩ : GslIter)) := by
    intro k
    induction k with
    | zero =>
      intro i hi
      have : i = v.size := by omega
      subst this
      rw [whileM_false (by simp [GslIter.equal, GslVector.end_, Nat.mul_comm])]
      simp [GslVector.end_, Nat.mul_comm]
    | succ k ih =>
      intro i hi
      have hne : ¬ i * v.stride = v.stride * v.size := by
        rw [Nat.mul_comm v.stride]
        intro h
        have := Nat.eq_of_mul_eq_mul_right hv h
        omega
      rw [whileM_true (by simp [GslIter.equal, GslVector.end_, hne]), List.range'_succ]
      show _ = ((op (v.data + i * v.stride) (u.data + i * u.stride) >>= fun _ => (List.range' (i + 1) k).forM fun i =>
        op (v.data + i * v.stride) (u.data + i * u.stride)) >>= fun _ => pure _)
      rw [bind_assoc, bind_assoc]
      congr 1
      funext _
      rw [pure_bind, ← ih (i + 1) (by omega)]
      simp only [GslIter.increment, Nat.add_mul, Nat.one_mul, Nat.add_assoc]
  have h0 := key v.size 0 (by omega)
  unfold gslForEach2
  simp only [Nat.zero_mul, Nat.add_zero] at h0
  simp only [GslVector.begin]
  rw [h0, bind_assoc]
  simp only [pure_bind, List.range_eq_range']
  exact bind_pure_unit

end Verif
