import Verif.Spec.Resizer
import Verif.Props.Algebra
import Mathlib.Tactic.NormNum

/-!
# C46: the resizing policies

* `resize_members_spec`: a resize happens exactly when the sizes differ; what already has the right size is left alone;
* `always_step`: with `always_resizer` every step is computed correctly, whatever sizes the temporaries have had before;
* `initially_first_step`, `initially_step`: with `initially_resizer` the first call sizes the temporaries, later calls
  with states of the same size are computed correctly;
* `initially_sizes_fixed`, `never_sizes_fixed`: otherwise only `adjust_size` changes sizes, in any history of calls;
* `adjust_then_never`: with `never_resizer`, `adjust_size` is enough;
* `initially_size_change_ub`: after the first call, a state of a different size is undefined behaviour.
-/

set_option linter.unusedSectionVars false
set_option linter.unusedSimpArgs false

namespace Verif
variable {K : Type}

section Basic
variable [IntCast K]

theorem vecResize_length (v : List K) (n : ℕ) : (vecResize v n).length = n := by
  simp [vecResize]; omega

theorem vecResize_prefix (v : List K) (n i : ℕ) (h : i < min n v.length) : (vecResize v n)[i]? = v[i]? := by
  unfold vecResize
  rw [List.getElem?_append_left (by simp; omega), List.getElem?_take, if_pos (by omega)]

/-- C46: `resize_impl` makes every member as large as `x`; members that have the right size, and all other objects, are
left alone; a member that is resized keeps its first components; the returned value tells whether something was
resized. -/
theorem resize_members_spec (x : Loc) (ls : List Loc) (hx : x ∉ ls) (s : SizedMem K) :
    ∃ b s', resizeMembers true x ls s = .ok b s' ∧ s'.initialized = s.initialized ∧
      (∀ l ∈ ls, (s'.mem l).length = (s.mem x).length) ∧
      (∀ l ∈ ls, (s.mem l).length = (s.mem x).length → s'.mem l = s.mem l) ∧
      (∀ l ∈ ls, ∀ i < min (s.mem x).length (s.mem l).length, (s'.mem l)[i]? = (s.mem l)[i]?) ∧
      (∀ l, l ∉ ls → s'.mem l = s.mem l) ∧
      (b = true ↔ ∃ l ∈ ls, (s.mem l).length ≠ (s.mem x).length) := by
  induction ls generalizing s with
  | nil => exact ⟨false, s, rfl, rfl, by simp, by simp, by simp, by simp, by simp⟩
  | cons l ls ih =>
    have hxl : x ≠ l := fun h => hx (by simp [h])
    have hxls : x ∉ ls := fun h => hx (by simp [h])
    by_cases hlen : (s.mem l).length = (s.mem x).length
    · obtain ⟨b, s', e, hi, h1, h2, h3, h4, h5⟩ := ih hxls s
      refine ⟨b, s', ?_, hi, ?_, ?_, ?_, ?_, ?_⟩
      · show (adjustSizeByResizeability true l x >>= fun r => resizeMembers true x ls >>= fun rs => pure (r || rs)) s = _
        have : adjustSizeByResizeability true l x s = .ok false s := by simp [adjustSizeByResizeability, hlen]
        rw [M.bind_ok (h := this), M.bind_ok (h := e)]; rfl
      · intro l' hl'
        by_cases hm : l' ∈ ls
        · exact h1 l' hm
        · rw [h4 l' hm]
          rcases List.mem_cons.mp hl' with rfl | h
          · exact hlen
          · exact absurd h hm
      · intro l' hl' hs
        by_cases hm : l' ∈ ls
        · exact h2 l' hm hs
        · exact h4 l' hm
      · intro l' hl' i hi'
        by_cases hm : l' ∈ ls
        · exact h3 l' hm i hi'
        · rw [h4 l' hm]
      · intro l' hl'
        exact h4 l' (fun h => hl' (by simp [h]))
      · rw [h5]
        constructor
        · rintro ⟨l', hl', h⟩; exact ⟨l', by simp [hl'], h⟩
        · rintro ⟨l', hl', h⟩
          rcases List.mem_cons.mp hl' with rfl | hm
          · exact absurd hlen h
          · exact ⟨l', hm, h⟩
    · have hs1x : (s.set l (vecResize (s.mem l) (s.mem x).length)).mem x = s.mem x := by
        simp [SizedMem.set, Function.update_of_ne hxl]
      obtain ⟨b, s', e, hi, h1, h2, h3, h4, h5⟩ := ih hxls (s.set l (vecResize (s.mem l) (s.mem x).length))
      have hs1l : (s.set l (vecResize (s.mem l) (s.mem x).length)).mem l = vecResize (s.mem l) (s.mem x).length := by
        simp [SizedMem.set]
      have hs1o : ∀ l', l' ≠ l → (s.set l (vecResize (s.mem l) (s.mem x).length)).mem l' = s.mem l' := by
        intro l' h; simp [SizedMem.set, Function.update_of_ne h]
      rw [hs1x] at h1 h2 h3 h5
      refine ⟨true, s', ?_, hi, ?_, ?_, ?_, ?_, ?_⟩
      · show (adjustSizeByResizeability true l x >>= fun r => resizeMembers true x ls >>= fun rs => pure (r || rs)) s = _
        have : adjustSizeByResizeability true l x s = .ok true (s.set l (vecResize (s.mem l) (s.mem x).length)) := by
          simp [adjustSizeByResizeability, hlen]
        rw [M.bind_ok (h := this), M.bind_ok (h := e)]; rfl
      · intro l' hl'
        by_cases hm : l' ∈ ls
        · exact h1 l' hm
        · rw [h4 l' hm]
          rcases List.mem_cons.mp hl' with rfl | h
          · rw [hs1l, vecResize_length]
          · exact absurd h hm
      · intro l' hl' hs
        have hne : l' ≠ l := fun h => hlen (h ▸ hs)
        have hm : l' ∈ ls := by
          rcases List.mem_cons.mp hl' with h | h
          · exact absurd h hne
          · exact h
        rw [h2 l' hm (by rw [hs1o l' hne]; exact hs), hs1o l' hne]
      · intro l' hl' i hi'
        by_cases hne : l' = l
        · subst hne
          have hb : (vecResize (s.mem l') (s.mem x).length)[i]? = (s.mem l')[i]? := vecResize_prefix _ _ _ hi'
          by_cases hm : l' ∈ ls
          · rw [h3 l' hm i (by rw [hs1l, vecResize_length]; omega), hs1l, hb]
          · rw [h4 l' hm, hs1l, hb]
        · by_cases hm : l' ∈ ls
          · rw [h3 l' hm i (by rw [hs1o l' hne]; exact hi'), hs1o l' hne]
          · rw [h4 l' hm, hs1o l' hne]
      · intro l' hl'
        rw [h4 l' (fun h => hl' (by simp [h])), hs1o l' (fun h => hl' (by simp [h]))]
      · simp only [true_iff]
        exact ⟨l, by simp, hlen⟩

end Basic

/-- C46: containers that are not resizeable are never resized. -/
theorem resize_not_resizeable [IntCast K] (x : Loc) (ls : List Loc) (s : SizedMem K) :
    resizeMembers false x ls s = .ok false s := by
  induction ls with
  | nil => rfl
  | cons l ls ih =>
    show (adjustSizeByResizeability false l x >>= fun r => resizeMembers false x ls >>= fun rs => pure (r || rs)) s = _
    have : adjustSizeByResizeability false l x s = .ok false s := by simp [adjustSizeByResizeability]
    rw [M.bind_ok (h := this), M.bind_ok (h := ih)]; rfl

section Step
variable [Add K] [Sub K] [Mul K] [Div K] [IntCast K]

theorem forEachLin_ok (dst : Loc) (l : List (K × Loc)) (s : SizedMem K)
    (h : ∀ p ∈ l, (s.mem dst).length ≤ (s.mem p.2).length) :
    forEachLin dst l s =
      .ok () (s.set dst (linList (s.mem dst).length (l.map fun p => (p.1, s.mem p.2)))) := by
  unfold forEachLin onMem
  have := scale_sum_for_each (l.map Prod.fst) dst (l.map Prod.snd) (by simp) s.mem
    (fun a i => (s.mem a).getD i (lit 0)) (by
      intro a ha i hi
      obtain ⟨p, hp, rfl⟩ := List.mem_map.mp ha
      have := h p hp
      simp [List.getD_eq_getElem?_getD, show i < (s.mem p.2).length by omega])
  rw [this]
  unfold SizedMem.set linList
  simp only [List.map_map, Function.comp_def]

theorem linList_length (n : ℕ) (l : List (K × List K)) : (linList n l).length = n := by simp [linList]

theorem callSysSized_ok (f : List K → K → List K) (src dst : Loc) (t : K) (s : SizedMem K)
    (h : (s.mem dst).length = (s.mem src).length) :
    callSysSized f src dst t s = .ok () (s.set dst (f (s.mem src) t)) := by
  unfold callSysSized
  rw [if_pos (by omega), ← h, List.drop_length, List.append_nil]

theorem SizedMem.set_mem (s : SizedMem K) (l : Loc) (v : List K) (l' : Loc) :
    (s.set l v).mem l' = if l' = l then v else s.mem l' := by
  unfold SizedMem.set
  by_cases h : l' = l <;> simp [h]

/-- What a call of a resizer achieves: afterwards the members have the size of `x`, and nothing else has changed. -/
def Adjusts (p : Policy) (r : Bool) (res : Loc) (ls : List Loc) (x : Loc) (s : SizedMem K) : Prop :=
  ∃ b s', p.adjustSize res (resizeMembers r x ls) s = .ok b s' ∧
    (∀ l ∈ ls, (s'.mem l).length = (s.mem x).length) ∧ (∀ l, l ∉ ls → s'.mem l = s.mem l) ∧
    (p = .initially → s'.initialized res = true) ∧ (∀ q, q ≠ res → s'.initialized q = s.initialized q) ∧
    (p ≠ .initially → s'.initialized = s.initialized)

theorem Adjusts.always (res : Loc) (ls : List Loc) (x : Loc) (hx : x ∉ ls) (s : SizedMem K) :
    Adjusts .always true res ls x s := by
  obtain ⟨b, s', e, hi, h1, _, _, h4, _⟩ := resize_members_spec x ls hx s
  exact ⟨b, s', e, h1, h4, by simp, fun q _ => by rw [hi], fun _ => hi⟩

theorem Adjusts.initially (res : Loc) (ls : List Loc) (x : Loc) (hx : x ∉ ls) (s : SizedMem K)
    (h : s.initialized res = false ∨ ∀ l ∈ ls, (s.mem l).length = (s.mem x).length) :
    Adjusts .initially true res ls x s := by
  by_cases hfl : s.initialized res = false
  · obtain ⟨b, s', e, hi, h1, _, _, h4, _⟩ := resize_members_spec x ls hx
      (⟨s.mem, Function.update s.initialized res true⟩ : SizedMem K)
    refine ⟨b, s', ?_, h1, h4, fun _ => by rw [hi]; simp, fun q hq => by rw [hi]; simp [Function.update_of_ne hq],
      by simp⟩
    unfold Policy.adjustSize
    simp only [hfl, if_true]
    exact e
  · refine ⟨false, s, ?_, h.resolve_left hfl, fun _ _ => rfl, fun _ => by simpa using hfl, fun _ _ => rfl, by simp⟩
    unfold Policy.adjustSize
    simp only [hfl]
    rfl

theorem Adjusts.never (r : Bool) (res : Loc) (ls : List Loc) (x : Loc) (s : SizedMem K)
    (h : ∀ l ∈ ls, (s.mem l).length = (s.mem x).length) : Adjusts .never r res ls x s :=
  ⟨false, s, rfl, h, fun _ _ => rfl, by simp, fun _ _ => rfl, fun _ => rfl⟩

/-- A step whose resizers do their work is the classical Runge-Kutta step, and leaves all members with the size of the
state. -/
theorem sized_step (f : List K → K → List K) (hf : ∀ x t, (f x t).length = x.length) (inp out : ℕ) (t dt : K)
    (s : SizedMem K) (ho : (s.mem (.user out)).length = (s.mem (.user inp)).length) (p : Policy) (r : Bool)
    (hbase : Adjusts p r baseResizer [mDxdt] (.user inp) s)
    (hrk : ∀ s', (∀ l, l ≠ mDxdt → s'.mem l = s.mem l) → s'.initialized rkResizer = s.initialized rkResizer →
      Adjusts p r rkResizer rk4Temporaries (.user inp) s') :
    ∃ s', rk4SizedStep p r f (.user inp) t (.user out) dt s = .ok () s' ∧
      s'.mem (.user out) = rk4ListStep f (s.mem (.user inp)) t dt ∧
      (∀ n, n ≠ out → s'.mem (.user n) = s.mem (.user n)) ∧
      Sized (s.mem (.user inp)).length s' ∧ (p = .initially → Initialized s') ∧
      (p ≠ .initially → s'.initialized = s.initialized) := by
  set x := s.mem (.user inp) with hx
  obtain ⟨b0, s0, e0, h0, h0o, h0i, h0q, h0n⟩ := hbase
  replace h0 : (s0.mem mDxdt).length = x.length := h0 _ (by simp)
  have h0x : s0.mem (.user inp) = x := h0o _ (by simp [mDxdt])
  set dh := dt / lit 2 with hdh
  set s0' := s0.set mDxdt (f x t) with hs0'
  have e1 : callSysSized f (.user inp) mDxdt t s0 = .ok () s0' := by
    rw [callSysSized_ok _ _ _ _ _ (by rw [h0, h0x]), h0x]
  obtain ⟨b1, s1, e2, h1s, h1o, h1i, h1q, h1n⟩ := hrk s0' (by
      intro l hl
      rw [hs0', SizedMem.set_mem, if_neg hl, h0o l (by simpa using hl)])
    (by rw [hs0']; exact h0q _ (by simp [rkResizer, baseResizer]))
  have hx0 : s0'.mem (.user inp) = x := by rw [hs0', SizedMem.set_mem, if_neg (by simp [mDxdt]), h0x]
  rw [hx0] at h1s
  have h1 : (s1.mem mXTmp).length = x.length := h1s _ (by simp [rk4Temporaries])
  have h2 : (s1.mem mDxm).length = x.length := h1s _ (by simp [rk4Temporaries])
  have h3 : (s1.mem mDxt).length = x.length := h1s _ (by simp [rk4Temporaries])
  have h4 : (s1.mem mDxh).length = x.length := h1s _ (by simp [rk4Temporaries])
  have h1u : ∀ n, s1.mem (.user n) = s.mem (.user n) := by
    intro n
    rw [h1o _ (by simp [rk4Temporaries, mXTmp, mDxm, mDxt, mDxh]), hs0', SizedMem.set_mem, if_neg (by simp [mDxdt]),
      h0o _ (by simp [mDxdt])]
  have h1d : s1.mem mDxdt = f x t := by
    rw [h1o _ (by simp [rk4Temporaries, mDxdt, mXTmp, mDxm, mDxt, mDxh]), hs0', SizedMem.set_mem, if_pos rfl]
  have h1x : s1.mem (.user inp) = x := h1u inp
  set y2 : List K := linList x.length [(lit 1, x), (dh, f x t)] with hy2
  set s2 := s1.set mXTmp y2 with hs2
  have e3 : forEachLin mXTmp [((lit 1 : K), .user inp), (dh, mDxdt)] s1 = .ok () s2 := by
    rw [forEachLin_ok]
    · simp only [List.map_cons, List.map_nil, h1, h1x, h1d]
      rfl
    · intro q hq
      simp only [List.mem_cons, List.not_mem_nil, or_false] at hq
      rcases hq with rfl | rfl
      · rw [h1, h1x]
      · rw [h1, h1d, hf]
  set k2 : List K := f y2 (t + dh) with hk2
  have lk2 : k2.length = x.length := by rw [hk2, hf, hy2, linList_length]
  set s3 := s2.set mDxt k2 with hs3
  have g2 : s2.mem mXTmp = y2 := by rw [hs2, SizedMem.set_mem, if_pos rfl]
  have e4 : callSysSized f mXTmp mDxt (t + dh) s2 = .ok () s3 := by
    rw [callSysSized_ok, g2]
    rw [g2, hs2, SizedMem.set_mem, if_neg (by simp [mDxt, mXTmp]), h3, hy2, linList_length]
  set y3 : List K := linList x.length [(lit 1, x), (dh, k2)] with hy3
  set s4 := s3.set mXTmp y3 with hs4
  have g3 : s3.mem (.user inp) = x ∧ s3.mem mDxt = k2 ∧ s3.mem mXTmp = y2 := by
    simp [hs3, hs2, SizedMem.set_mem, mXTmp, mDxt, h1x]
  have e5 : forEachLin mXTmp [((lit 1 : K), .user inp), (dh, mDxt)] s3 = .ok () s4 := by
    rw [forEachLin_ok]
    · simp only [List.map_cons, List.map_nil, g3.1, g3.2.1, g3.2.2, hy2, linList_length]
      rfl
    · intro q hq
      simp only [List.mem_cons, List.not_mem_nil, or_false] at hq
      rcases hq with rfl | rfl
      · rw [g3.2.2, g3.1, hy2, linList_length]
      · rw [g3.2.2, g3.2.1, hy2, linList_length, lk2]
  set k3 : List K := f y3 (t + dh) with hk3
  have lk3 : k3.length = x.length := by rw [hk3, hf, hy3, linList_length]
  set s5 := s4.set mDxm k3 with hs5
  have g4 : s4.mem mXTmp = y3 ∧ s4.mem mDxm = s1.mem mDxm := by
    simp [hs4, hs3, hs2, SizedMem.set_mem, mXTmp, mDxt, mDxm]
  have e6 : callSysSized f mXTmp mDxm (t + dh) s4 = .ok () s5 := by
    rw [callSysSized_ok, g4.1]
    rw [g4.1, g4.2, h2, hy3, linList_length]
  set y4 : List K := linList x.length [(lit 1, x), (dt, k3)] with hy4
  set s6 := s5.set mXTmp y4 with hs6
  have g5 : s5.mem (.user inp) = x ∧ s5.mem mDxm = k3 ∧ s5.mem mXTmp = y3 := by
    simp [hs5, hs4, hs3, hs2, SizedMem.set_mem, mXTmp, mDxt, mDxm, h1x]
  have e7 : forEachLin mXTmp [((lit 1 : K), .user inp), (dt, mDxm)] s5 = .ok () s6 := by
    rw [forEachLin_ok]
    · simp only [List.map_cons, List.map_nil, g5.1, g5.2.1, g5.2.2, hy3, linList_length]
      rfl
    · intro q hq
      simp only [List.mem_cons, List.not_mem_nil, or_false] at hq
      rcases hq with rfl | rfl
      · rw [g5.2.2, g5.1, hy3, linList_length]
      · rw [g5.2.2, g5.2.1, hy3, linList_length, lk3]
  set k4 : List K := f y4 (t + dt) with hk4
  have lk4 : k4.length = x.length := by rw [hk4, hf, hy4, linList_length]
  set s7 := s6.set mDxh k4 with hs7
  have g6 : s6.mem mXTmp = y4 ∧ s6.mem mDxh = s1.mem mDxh := by
    simp [hs6, hs5, hs4, hs3, hs2, SizedMem.set_mem, mXTmp, mDxt, mDxm, mDxh]
  have e8 : callSysSized f mXTmp mDxh (t + dt) s6 = .ok () s7 := by
    rw [callSysSized_ok, g6.1]
    rw [g6.1, g6.2, h4, hy4, linList_length]
  have m7 : s7.mem (.user inp) = x ∧ s7.mem mDxdt = f x t ∧ s7.mem mDxt = k2 ∧ s7.mem mDxm = k3 ∧ s7.mem mDxh = k4 ∧
      s7.mem mXTmp = y4 ∧ ∀ n, s7.mem (.user n) = s.mem (.user n) := by
    have hd : s7.mem mDxdt = s1.mem mDxdt := by
      simp [hs7, hs6, hs5, hs4, hs3, hs2, SizedMem.set_mem, mXTmp, mDxdt, mDxt, mDxm, mDxh]
    have hu : ∀ n, s7.mem (.user n) = s1.mem (.user n) := by
      intro n
      simp [hs7, hs6, hs5, hs4, hs3, hs2, SizedMem.set_mem, mXTmp, mDxdt, mDxt, mDxm, mDxh]
    refine ⟨by rw [hu, h1x], by rw [hd, h1d], ?_, ?_, ?_, ?_, fun n => by rw [hu, h1u]⟩ <;>
      simp [hs7, hs6, hs5, hs4, hs3, hs2, SizedMem.set_mem, mXTmp, mDxdt, mDxt, mDxm, mDxh]
  obtain ⟨m1, m2, m3, m4, m5, m6, mu⟩ := m7
  set s8 := s7.set (.user out) (rk4ListStep f x t dt) with hs8
  have e9 : forEachLin (.user out) [((lit 1 : K), .user inp), (dt / lit 6, mDxdt), (dt / lit 3, mDxt),
      (dt / lit 3, mDxm), (dt / lit 6, mDxh)] s7 = .ok () s8 := by
    rw [forEachLin_ok]
    · simp only [List.map_cons, List.map_nil, m1, m2, m3, m4, m5, mu out, ho]
      rfl
    · intro q hq
      rw [mu out, ho]
      simp only [List.mem_cons, List.not_mem_nil, or_false] at hq
      rcases hq with rfl | rfl | rfl | rfl | rfl
      · rw [m1]
      · rw [m2, hf]
      · rw [m3, lk2]
      · rw [m4, lk3]
      · rw [m5, lk4]
  refine ⟨s8, ?_, ?_, ?_, ?_, ?_, ?_⟩
  · unfold rk4SizedStep
    rw [M.bind_ok (h := e0), M.bind_ok (h := e1)]
    unfold rk4SizedImpl
    rw [M.bind_ok (h := e2)]
    show (forEachLin mXTmp [(lit 1, .user inp), (dh, mDxdt)] >>= fun _ => _) s1 = _
    rw [M.bind_ok (h := e3), M.bind_ok (h := e4), M.bind_ok (h := e5), M.bind_ok (h := e6), M.bind_ok (h := e7),
      M.bind_ok (h := e8)]
    exact e9
  · rw [hs8, SizedMem.set_mem, if_pos rfl]
  · intro n hn
    rw [hs8, SizedMem.set_mem, if_neg (by simpa using hn), mu]
  · intro l hl
    rw [hs8, SizedMem.set_mem]
    simp only [rk4Members, rk4Temporaries, List.mem_cons, List.not_mem_nil, or_false] at hl
    rcases hl with rfl | rfl | rfl | rfl | rfl
    · rw [if_neg (by simp [mDxdt]), m2, hf]
    · rw [if_neg (by simp [mXTmp]), m6, hy4, linList_length]
    · rw [if_neg (by simp [mDxm]), m4, lk3]
    · rw [if_neg (by simp [mDxt]), m3, lk2]
    · rw [if_neg (by simp [mDxh]), m5, lk4]
  · intro hp
    refine ⟨?_, h1i hp⟩
    show s1.initialized baseResizer = true
    rw [h1q _ (by simp [rkResizer, baseResizer])]
    exact h0i hp
  · intro hp
    show s1.initialized = s.initialized
    rw [h1n hp]
    exact h0n hp

/-- C46: `always_resizer`: whatever sizes the stepper's temporaries have (whatever has happened before), a step with a
state of any size is the classical Runge-Kutta step, and the temporaries have the size of the state. -/
theorem always_step (f : List K → K → List K) (hf : ∀ x t, (f x t).length = x.length) (inp out : ℕ) (t dt : K)
    (s : SizedMem K) (ho : (s.mem (.user out)).length = (s.mem (.user inp)).length) :
    ∃ s', rk4SizedStep .always true f (.user inp) t (.user out) dt s = .ok () s' ∧
      s'.mem (.user out) = rk4ListStep f (s.mem (.user inp)) t dt ∧
      (∀ n, n ≠ out → s'.mem (.user n) = s.mem (.user n)) ∧ Sized (s.mem (.user inp)).length s' := by
  obtain ⟨s', e, h1, h2, h3, _, _⟩ := sized_step f hf inp out t dt s ho .always true
    (Adjusts.always _ _ _ (by simp [mDxdt]) _)
    (fun s' _ _ => Adjusts.always _ _ _ (by simp [rk4Temporaries, mXTmp, mDxm, mDxt, mDxh]) _)
  exact ⟨s', e, h1, h2, h3⟩

/-- C46: `initially_resizer`: the first call (of either resizer) sizes the temporaries; a later step is computed
correctly if the temporaries have the size of the state. -/
theorem initially_step (f : List K → K → List K) (hf : ∀ x t, (f x t).length = x.length) (inp out : ℕ) (t dt : K)
    (s : SizedMem K) (ho : (s.mem (.user out)).length = (s.mem (.user inp)).length)
    (h : (s.initialized baseResizer = false ∧ s.initialized rkResizer = false) ∨ Sized (s.mem (.user inp)).length s) :
    ∃ s', rk4SizedStep .initially true f (.user inp) t (.user out) dt s = .ok () s' ∧
      s'.mem (.user out) = rk4ListStep f (s.mem (.user inp)) t dt ∧
      (∀ n, n ≠ out → s'.mem (.user n) = s.mem (.user n)) ∧ Sized (s.mem (.user inp)).length s' ∧
      Initialized s' := by
  obtain ⟨s', e, h1, h2, h3, h4, _⟩ := sized_step f hf inp out t dt s ho .initially true
    (Adjusts.initially _ _ _ (by simp [mDxdt]) _ (h.imp And.left (fun hs l hl => hs l (by
      simp at hl; simp [hl, rk4Members]))))
    (fun s' hs' hi => Adjusts.initially _ _ _ (by simp [rk4Temporaries, mXTmp, mDxm, mDxt, mDxh]) _
      (h.imp (fun h => by rw [hi]; exact h.2) (fun hs l hl => by
        have hne : l ≠ mDxdt := by
          rintro rfl
          simp [rk4Temporaries, mXTmp, mDxm, mDxt, mDxh, mDxdt] at hl
        rw [hs' l hne, hs' _ (by simp [mDxdt])]
        exact hs l (by simp [rk4Members, hl]))))
  exact ⟨s', e, h1, h2, h3, h4 rfl⟩

/-- C46: with `never_resizer`, or with containers that cannot be resized, a step is computed correctly if the
temporaries have the size of the state. -/
theorem never_step (f : List K → K → List K) (hf : ∀ x t, (f x t).length = x.length) (inp out : ℕ) (t dt : K)
    (s : SizedMem K) (ho : (s.mem (.user out)).length = (s.mem (.user inp)).length) (r : Bool)
    (h : Sized (s.mem (.user inp)).length s) :
    ∃ s', rk4SizedStep .never r f (.user inp) t (.user out) dt s = .ok () s' ∧
      s'.mem (.user out) = rk4ListStep f (s.mem (.user inp)) t dt ∧
      (∀ n, n ≠ out → s'.mem (.user n) = s.mem (.user n)) ∧ Sized (s.mem (.user inp)).length s' := by
  obtain ⟨s', e, h1, h2, h3, _, _⟩ := sized_step f hf inp out t dt s ho .never r
    (Adjusts.never _ _ _ _ _ (fun l hl => h l (by simp at hl; simp [hl, rk4Members])))
    (fun s' hs' _ => Adjusts.never _ _ _ _ _ (fun l hl => by
        have hne : l ≠ mDxdt := by
          rintro rfl
          simp [rk4Temporaries, mXTmp, mDxm, mDxt, mDxh, mDxdt] at hl
        rw [hs' l hne, hs' _ (by simp [mDxdt])]
        exact h l (by simp [rk4Members, hl])))
  exact ⟨s', e, h1, h2, h3⟩

/-- C46: `adjust_size( x )` gives all temporaries the size of `x`, whatever the policy; the resizers do not take note of
it. -/
theorem adjust_size_spec (x : ℕ) (s : SizedMem K) :
    ∃ s', rk4SizedAdjust true (.user x) s = .ok () s' ∧ Sized (s.mem (.user x)).length s' ∧
      (∀ n, s'.mem (.user n) = s.mem (.user n)) ∧ s'.initialized = s.initialized := by
  obtain ⟨b, s1, e1, i1, h1, _, _, h4, _⟩ := resize_members_spec (.user x) rk4Temporaries
    (by simp [rk4Temporaries, mXTmp, mDxm, mDxt, mDxh]) s
  obtain ⟨b2, s2, e2, i2, g1, _, _, g4, _⟩ := resize_members_spec (.user x) [mDxdt] (by simp [mDxdt]) s1
  have hu1 : ∀ n, s1.mem (.user n) = s.mem (.user n) := fun n => h4 _ (by simp [rk4Temporaries, mXTmp, mDxm, mDxt, mDxh])
  refine ⟨s2, ?_, ?_, ?_, by rw [i2, i1]⟩
  · unfold rk4SizedAdjust
    rw [M.bind_ok (h := e1), M.bind_ok (h := e2)]
    rfl
  · intro l hl
    rcases List.mem_cons.mp hl with rfl | hl
    · rw [g1 _ (by simp), hu1]
    · rw [g4 l ?_, h1 l hl]
      rintro h
      simp at h
      subst h
      simp [rk4Temporaries, mXTmp, mDxm, mDxt, mDxh, mDxdt] at hl
  · intro n
    rw [g4 _ (by simp [mDxdt]), hu1]

/-! ## Histories -/

/-- A program that does not change the sizes of the private containers. -/
def KeepsSizes (p : M (SizedMem K) Unit) : Prop :=
  ∀ s s', p s = .ok () s' → (∀ l ∈ rk4Members, (s'.mem l).length = (s.mem l).length) ∧ s'.initialized = s.initialized

theorem KeepsSizes.bind {p : M (SizedMem K) Unit} {q : Unit → M (SizedMem K) Unit} (hp : KeepsSizes p)
    (hq : ∀ u, KeepsSizes (q u)) : KeepsSizes (p >>= q) := by
  intro s s' h
  rw [M.bind_apply] at h
  cases e : p s with
  | ok u s1 =>
    rw [e] at h
    obtain ⟨h1, h2⟩ := hp s s1 e
    obtain ⟨h3, h4⟩ := hq u s1 s' h
    exact ⟨fun l hl => by rw [h3 l hl, h1 l hl], by rw [h4, h2]⟩
  | err er s1 => rw [e] at h; cases h
  | ub => rw [e] at h; cases h
  | div => rw [e] at h; cases h

theorem runInstrs_lengths (l : List (Instr Loc K)) : ∀ (s s' : Mem Loc K × List K), runInstrs l s = some s' →
    ∀ c, (s'.1 c).length = (s.1 c).length := by
  induction l with
  | nil => intro s s' h c; cases h; rfl
  | cons ins l ih =>
    intro s s' h c
    cases he : ins.exec s with
    | none => simp [runInstrs, he] at h
    | some s1 =>
      simp only [runInstrs, he] at h
      rw [ih s1 s' h c]
      cases ins with
      | enter => cases he; rfl
      | act refs a =>
        obtain ⟨m, regs⟩ := s
        cases a with
        | load j =>
          simp only [Instr.exec, Action.exec, Option.bind_eq_bind, Option.bind_eq_some_iff] at he
          obtain ⟨r, _, v, _, e⟩ := he
          cases e; rfl
        | store j f =>
          simp only [Instr.exec, Action.exec, Option.bind_eq_bind, Option.bind_eq_some_iff] at he
          obtain ⟨r, _, e⟩ := he
          split at e
          · cases e
            by_cases hc : c = r.1
            · subst hc; simp
            · simp [Function.update_of_ne hc]
          · cases e

theorem forM_callOp_lengths (op : List (Action K)) (refs : ℕ → List (Cell Loc)) (l : List ℕ) :
    ∀ (m m' : Mem Loc K), l.forM (fun i => callOp op (refs i)) m = .ok () m' → ∀ c, (m' c).length = (m c).length := by
  induction l with
  | nil => intro m m' h c; cases h; rfl
  | cons i l ih =>
    intro m m' h c
    have h' : (callOp op (refs i) >>= fun _ => l.forM (fun i => callOp op (refs i))) m = .ok () m' := h
    rw [M.bind_apply] at h'
    unfold callOp at h'
    cases e : runInstrs (callInstrs op (refs i)) (m, []) with
    | none => rw [e] at h'; cases h'
    | some s1 =>
      rw [e] at h'
      rw [ih s1.1 m' h' c]
      exact runInstrs_lengths _ _ _ e c

theorem keepsSizes_forEachLin (dst : Loc) (l : List (K × Loc)) : KeepsSizes (forEachLin dst l) := by
  intro s s' h
  unfold forEachLin onMem at h
  rw [rangeForEach_eq] at h
  generalize hr : (List.range (s.mem dst).length).forM
    (fun i => callOp (scaleSumOp (l.map Prod.fst)) ((dst :: l.map Prod.snd).map fun c => (c, i))) s.mem = r at h
  cases r with
  | ok u m =>
    cases h
    exact ⟨fun l' _ => forM_callOp_lengths _ _ _ _ _ hr l', rfl⟩
  | err er s1 => cases h
  | ub => cases h
  | div => cases h

theorem keepsSizes_callSys (f : List K → K → List K) (hf : ∀ x t, (f x t).length = x.length) (src dst : Loc) (t : K) :
    KeepsSizes (callSysSized f src dst t) := by
  intro s s' h
  unfold callSysSized at h
  split at h
  · cases h
    refine ⟨fun l _ => ?_, rfl⟩
    rw [SizedMem.set_mem]
    split
    · subst_vars
      rw [List.length_append, hf, List.length_drop]
      omega
    · rfl
  · cases h

/-- If the resizers do nothing, a step that returns has not changed the sizes of the temporaries. -/
theorem keepsSizes_step (p : Policy) (r : Bool) (f : List K → K → List K) (hf : ∀ x t, (f x t).length = x.length)
    (inp out : Loc) (t dt : K) (s s' : SizedMem K)
    (hb : ∀ s' : SizedMem K, s'.initialized = s.initialized →
      p.adjustSize baseResizer (resizeMembers r inp [mDxdt]) s' = .ok false s')
    (hr : ∀ s' : SizedMem K, s'.initialized = s.initialized →
      p.adjustSize rkResizer (resizeMembers r inp rk4Temporaries) s' = .ok false s')
    (h : rk4SizedStep p r f inp t out dt s = .ok () s') :
    (∀ l ∈ rk4Members, (s'.mem l).length = (s.mem l).length) ∧ s'.initialized = s.initialized := by
  unfold rk4SizedStep at h
  rw [M.bind_ok (h := hb s rfl), M.bind_apply] at h
  cases e : callSysSized f inp mDxdt t s with
  | ok u s1 =>
    rw [e] at h
    obtain ⟨h1, h2⟩ := keepsSizes_callSys f hf inp mDxdt t s s1 e
    have h' : rk4SizedImpl p r f inp mDxdt t out dt s1 = .ok () s' := h
    unfold rk4SizedImpl at h'
    rw [M.bind_ok (h := hr s1 h2)] at h'
    obtain ⟨h3, h4⟩ := (KeepsSizes.bind (keepsSizes_forEachLin _ _) fun _ =>
      KeepsSizes.bind (keepsSizes_callSys f hf _ _ _) fun _ =>
      KeepsSizes.bind (keepsSizes_forEachLin _ _) fun _ =>
      KeepsSizes.bind (keepsSizes_callSys f hf _ _ _) fun _ =>
      KeepsSizes.bind (keepsSizes_forEachLin _ _) fun _ =>
      KeepsSizes.bind (keepsSizes_callSys f hf _ _ _) fun _ => keepsSizes_forEachLin _ _) s1 s' h'
    exact ⟨fun l hl => by rw [h3 l hl, h1 l hl], by rw [h4, h2]⟩
  | err er s1 => rw [e] at h; cases h
  | ub => rw [e] at h; cases h
  | div => rw [e] at h; cases h

theorem keepsSizes_history (p : Policy) (r : Bool) (I : SizedMem K → Prop)
    (hI : ∀ s s', s'.initialized = s.initialized → I s → I s')
    (hb : ∀ inp s, I s → p.adjustSize baseResizer (resizeMembers r inp [mDxdt]) s = .ok false s)
    (hr : ∀ inp s, I s → p.adjustSize rkResizer (resizeMembers r inp rk4Temporaries) s = .ok false s)
    (cs : List (SizedCall K)) (hres : ∀ c ∈ cs, c.Respects) (hno : ∀ c ∈ cs, c.NoAdjust) :
    ∀ (s s' : SizedMem K), I s → runSized p r cs s = .ok () s' →
      (∀ l ∈ rk4Members, (s'.mem l).length = (s.mem l).length) ∧ I s' := by
  induction cs with
  | nil => intro s s' hs h; cases h; exact ⟨fun _ _ => rfl, hs⟩
  | cons c cs ih =>
    intro s s' hs h
    have h' : (c.run p r >>= fun _ => runSized p r cs) s = .ok () s' := h
    rw [M.bind_apply] at h'
    cases e : c.run p r s with
    | ok u s1 =>
      rw [e] at h'
      have h1 : (∀ l ∈ rk4Members, (s1.mem l).length = (s.mem l).length) ∧ s1.initialized = s.initialized := by
        cases c with
        | step f inp t out dt =>
          exact keepsSizes_step p r f (hres (.step f inp t out dt) (by simp)) (.user inp) (.user out) t dt s s1
            (fun s2 h2 => hb _ s2 (hI _ _ h2 hs)) (fun s2 h2 => hr _ s2 (hI _ _ h2 hs)) e
        | adjust x => exact (hno (.adjust x) (by simp)).elim
        | assign x v =>
          cases e
          refine ⟨fun l hl => ?_, rfl⟩
          rw [SizedMem.set_mem, if_neg]
          rintro rfl
          simp [rk4Members, rk4Temporaries, mXTmp, mDxm, mDxt, mDxh, mDxdt] at hl
      obtain ⟨h2, h3⟩ := ih (fun c hc => hres c (by simp [hc])) (fun c hc => hno c (by simp [hc])) s1 s'
        (hI _ _ h1.2 hs) h'
      exact ⟨fun l hl => by rw [h2 l hl, h1.1 l hl], h3⟩
    | err er s1 => rw [e] at h'; cases h'
    | ub => rw [e] at h'; cases h'
    | div => rw [e] at h'; cases h'

/-- C46: with `never_resizer` no history of steps and assignments changes the size of a temporary; only `adjust_size`
does. -/
theorem never_sizes_fixed (r : Bool) (cs : List (SizedCall K)) (hres : ∀ c ∈ cs, c.Respects)
    (hno : ∀ c ∈ cs, c.NoAdjust) (s s' : SizedMem K) (h : runSized .never r cs s = .ok () s') :
    ∀ l ∈ rk4Members, (s'.mem l).length = (s.mem l).length :=
  (keepsSizes_history .never r (fun _ => True) (fun _ _ _ h => h) (fun _ _ _ => rfl) (fun _ _ _ => rfl) cs hres hno
    s s' trivial h).1

/-- C46: with `initially_resizer`, after the first step no history of steps and assignments - with states of whatever
size - changes the size of a temporary. -/
theorem initially_sizes_fixed (r : Bool) (cs : List (SizedCall K)) (hres : ∀ c ∈ cs, c.Respects)
    (hno : ∀ c ∈ cs, c.NoAdjust) (s s' : SizedMem K) (hi : Initialized s)
    (h : runSized .initially r cs s = .ok () s') :
    (∀ l ∈ rk4Members, (s'.mem l).length = (s.mem l).length) ∧ Initialized s' :=
  keepsSizes_history .initially r Initialized (fun s s' e h => ⟨by rw [e]; exact h.1, by rw [e]; exact h.2⟩)
    (fun _ s hs => by simp [Policy.adjustSize, hs.1]) (fun _ s hs => by simp [Policy.adjustSize, hs.2]) cs hres hno
    s s' hi h

/-- C46: `never_resizer` after `adjust_size( x )`: all later steps with states of that size are computed correctly,
whatever steps have been made in between. -/
theorem adjust_then_never (x : ℕ) (cs : List (SizedCall K)) (hres : ∀ c ∈ cs, c.Respects) (hno : ∀ c ∈ cs, c.NoAdjust)
    (s s' : SizedMem K) (h : runSized .never true (.adjust x :: cs) s = .ok () s')
    (f : List K → K → List K) (hf : ∀ x t, (f x t).length = x.length) (inp out : ℕ) (t dt : K)
    (hinp : (s'.mem (.user inp)).length = (s.mem (.user x)).length)
    (hout : (s'.mem (.user out)).length = (s'.mem (.user inp)).length) :
    ∃ s'', rk4SizedStep .never true f (.user inp) t (.user out) dt s' = .ok () s'' ∧
      s''.mem (.user out) = rk4ListStep f (s'.mem (.user inp)) t dt := by
  obtain ⟨s1, e1, hs1, _, _⟩ := adjust_size_spec x s
  have h' : (rk4SizedAdjust true (.user x) >>= fun _ => runSized .never true cs) s = .ok () s' := h
  rw [M.bind_ok (h := e1)] at h'
  have hk := never_sizes_fixed true cs hres hno s1 s' h'
  obtain ⟨s'', e, h1, _⟩ := never_step f hf inp out t dt s' hout true
    (fun l hl => by rw [hk l hl, hs1 l hl, hinp])
  exact ⟨s'', e, h1⟩

/-- C46: `initially_resizer`, from a new stepper: after a first step, and whatever later steps, a step with a state of
the size of the first one is computed correctly. -/
theorem initially_history (f0 : List K → K → List K) (hf0 : ∀ x t, (f0 x t).length = x.length) (inp0 out0 : ℕ)
    (t0 dt0 : K) (cs : List (SizedCall K)) (hres : ∀ c ∈ cs, c.Respects) (hno : ∀ c ∈ cs, c.NoAdjust)
    (s s' : SizedMem K) (hnew : s.initialized baseResizer = false ∧ s.initialized rkResizer = false)
    (hout0 : (s.mem (.user out0)).length = (s.mem (.user inp0)).length)
    (h : runSized .initially true (.step f0 inp0 t0 out0 dt0 :: cs) s = .ok () s')
    (f : List K → K → List K) (hf : ∀ x t, (f x t).length = x.length) (inp out : ℕ) (t dt : K)
    (hinp : (s'.mem (.user inp)).length = (s.mem (.user inp0)).length)
    (hout : (s'.mem (.user out)).length = (s'.mem (.user inp)).length) :
    ∃ s'', rk4SizedStep .initially true f (.user inp) t (.user out) dt s' = .ok () s'' ∧
      s''.mem (.user out) = rk4ListStep f (s'.mem (.user inp)) t dt := by
  obtain ⟨s1, e1, _, _, hs1, hi1⟩ := initially_step f0 hf0 inp0 out0 t0 dt0 s hout0 (Or.inl hnew)
  have h' : (rk4SizedStep .initially true f0 (.user inp0) t0 (.user out0) dt0 >>= fun _ =>
    runSized .initially true cs) s = .ok () s' := h
  rw [M.bind_ok (h := e1)] at h'
  have hk := (initially_sizes_fixed true cs hres hno s1 s' hi1 h').1
  obtain ⟨s'', e, h1, _⟩ := initially_step f hf inp out t dt s' hout
    (Or.inr (fun l hl => by rw [hk l hl, hs1 l hl, hinp]))
  exact ⟨s'', e, h1⟩

/-! ## A state of another size -/

theorem loads_none (refs : List (Cell Loc)) (m : Mem Loc K) (js : List ℕ) (j : ℕ) (hj : j ∈ js) (r : Cell Loc)
    (hr : refs[j]? = some r) (hb : (m r.1).length ≤ r.2) :
    ∀ regs, runInstrs (js.map fun j => Instr.act refs (Action.load j)) (m, regs) = none := by
  induction js with
  | nil => simp at hj
  | cons a js ih =>
    intro regs
    show ((Instr.act refs (Action.load a)).exec (m, regs) >>= runInstrs _) = none
    by_cases ha : a = j
    · subst ha
      have : (Instr.act refs (Action.load a)).exec (m, regs) = (none : Option (Mem Loc K × List K)) := by
        simp [Instr.exec, Action.exec, hr, hb]
      rw [this]; rfl
    · cases e : (Instr.act refs (Action.load a)).exec (m, regs) with
      | none => rfl
      | some s1 =>
        simp only [Instr.exec, Action.exec, Option.bind_eq_bind, Option.bind_eq_some_iff] at e
        obtain ⟨r', _, v, _, e⟩ := e
        cases e
        exact ih (by rcases List.mem_cons.mp hj with h | h; exact absurd h.symm ha; exact h) _

/-- A loop of the algebra with a source that is shorter than the destination is undefined behaviour. -/
theorem forEachLin_short_ub (dst : Loc) (l : List (K × Loc)) (s : SizedMem K) (j : ℕ) (p : K × Loc)
    (hj : l[j]? = some p) (hlen : (s.mem p.2).length < (s.mem dst).length) : forEachLin dst l s = .ub := by
  unfold forEachLin onMem
  rw [rangeForEach_eq]
  have key : ∀ (n a : ℕ) (m : Mem Loc K), (m p.2).length = (s.mem p.2).length → a ≤ (s.mem p.2).length →
      (s.mem p.2).length < a + n →
      (List.range' a n).forM (fun i => callOp (scaleSumOp (l.map Prod.fst))
        ((dst :: l.map Prod.snd).map fun c => (c, i))) m = .ub := by
    intro n
    induction n with
    | zero => intro a m _ _ _; omega
    | succ n ih =>
      intro a m hm ha hn
      rw [List.range'_succ]
      show (callOp _ _ >>= fun _ => _) m = _
      rw [M.bind_apply]
      have hcall : callOp (scaleSumOp (l.map Prod.fst)) ((dst :: l.map Prod.snd).map fun c => (c, a)) m = .ub ∨
          ∃ m', callOp (scaleSumOp (l.map Prod.fst)) ((dst :: l.map Prod.snd).map fun c => (c, a)) m = .ok () m' ∧
            (m' p.2).length = (m p.2).length ∧ a ≠ (s.mem p.2).length := by
        unfold callOp
        by_cases hEq : a = (s.mem p.2).length
        · left
          have hjl : j < l.length := by
            by_contra hc
            rw [List.getElem?_eq_none (by omega)] at hj
            cases hj
          have := loads_none ((dst :: l.map Prod.snd).map fun c => (c, a)) m
            ((List.range (l.map Prod.fst).length).map (· + 1)) (j + 1) (by simp; omega) (p.2, a)
            (by simp [hj]) (by simp [hm, hEq]) []
          have e : runInstrs (callInstrs (scaleSumOp (l.map Prod.fst)) ((dst :: l.map Prod.snd).map fun c => (c, a)))
              (m, []) = none := by
            show runInstrs ((scaleSumOp (l.map Prod.fst)).map (Instr.act _)) (m, []) = none
            unfold scaleSumOp
            rw [List.map_append, runInstrs_append, List.map_map]
            rw [List.map_map] at this
            rw [show ((List.range (l.map Prod.fst).length).map
              (Instr.act ((dst :: l.map Prod.snd).map fun c => (c, a)) ∘ fun j => Action.load (j + 1))) = _ from rfl]
            have h2 := this
            simp only [Function.comp_def] at h2 ⊢
            rw [h2]; rfl
          rw [e]
        · cases e : runInstrs (callInstrs (scaleSumOp (l.map Prod.fst)) ((dst :: l.map Prod.snd).map fun c => (c, a)))
              (m, []) with
          | none => exact Or.inl rfl
          | some s1 => exact Or.inr ⟨s1.1, rfl, runInstrs_lengths _ _ _ e _, hEq⟩
      rcases hcall with h | ⟨m', h, hl, hne⟩
      · rw [h]
      · rw [h]
        exact ih (a + 1) m' (by rw [hl, hm]) (by omega) (by omega)
  rw [List.range_eq_range', key _ 0 s.mem rfl (by omega) (by omega)]

/-- C46, the other side of `initially_resizer`: after the first call, a step with a state of a different size - larger
or smaller - is undefined behaviour, unless `adjust_size` is called first. -/
theorem initially_size_change_ub (f : List K → K → List K) (hf : ∀ x t, (f x t).length = x.length) (inp out : ℕ)
    (t dt : K) (n : ℕ) (s : SizedMem K) (hs : Sized n s) (hi : Initialized s)
    (hne : (s.mem (.user inp)).length ≠ n) :
    rk4SizedStep .initially true f (.user inp) t (.user out) dt s = .ub := by
  have hd : (s.mem mDxdt).length = n := hs _ (by simp [rk4Members])
  have ht : (s.mem mXTmp).length = n := hs _ (by simp [rk4Members, rk4Temporaries])
  unfold rk4SizedStep
  have e0 : Policy.initially.adjustSize baseResizer (resizeMembers true (.user inp) [mDxdt]) s = .ok false s := by
    simp [Policy.adjustSize, hi.1]
  rw [M.bind_ok (h := e0)]
  rcases Nat.lt_or_gt_of_ne hne with h | h
  · have e1 : callSysSized f (.user inp) mDxdt t s = .ok () (s.set mDxdt (f (s.mem (.user inp)) t ++
        (s.mem mDxdt).drop (s.mem (.user inp)).length)) := by
      unfold callSysSized; rw [if_pos (by omega)]
    rw [M.bind_ok (h := e1)]
    unfold rk4SizedImpl
    generalize hs1 : s.set mDxdt (f (s.mem (.user inp)) t ++ (s.mem mDxdt).drop (s.mem (.user inp)).length) = s1
    have e2 : Policy.initially.adjustSize rkResizer (resizeMembers true (.user inp) rk4Temporaries) s1 =
        .ok false s1 := by
      subst hs1
      simp [Policy.adjustSize, SizedMem.set, hi.2]
    rw [M.bind_ok (h := e2)]
    have e3 : forEachLin mXTmp [((lit 1 : K), .user inp), (dt / lit 2, mDxdt)] s1 = .ub := by
      apply forEachLin_short_ub (j := 0) (p := (lit 1, .user inp)) (hj := rfl)
      subst hs1
      simp [SizedMem.set_mem, mXTmp, mDxdt] at ht ⊢
      omega
    exact M.bind_ub e3 _
  · have e1 : callSysSized f (.user inp) mDxdt t s = .ub := by
      unfold callSysSized; rw [if_neg (by omega)]
    exact M.bind_ub e1 _

end Step

/-! ## Concrete cases -/

/-- A new stepper and a state with two components. -/
def newSized : SizedMem ℚ := ⟨fun l => if l = .user 0 then [1, 2] else [], fun _ => false⟩

example : newSized.initialized baseResizer = false ∧ newSized.initialized rkResizer = false := ⟨rfl, rfl⟩

/-- A stepper that has been used with states of size 2 and is then called with a state of size 3. -/
example : Sized 2 (⟨fun l => if l = .user 0 then [1, 2, 3] else [0, 0], fun _ => true⟩ : SizedMem ℚ) ∧
    Initialized (⟨fun l => if l = .user 0 then [1, 2, 3] else [0, 0], fun _ => true⟩ : SizedMem ℚ) := by
  refine ⟨?_, rfl, rfl⟩
  intro l hl
  have : l ≠ .user 0 := by
    rintro rfl
    simp [rk4Members, rk4Temporaries, mXTmp, mDxm, mDxt, mDxh, mDxdt] at hl
  simp [this]

end Verif
