import Verif.Spec.Parallel
import Verif.Lemmas.Algebra
import Mathlib.Data.List.Count

/-! # Tasks with disjoint footprints can be scheduled in any way -/

set_option linter.unusedSectionVars false
set_option linter.unusedSimpArgs false

namespace Verif
variable {ι K : Type} [DecidableEq ι]

/-- Read a component. -/
def rd (m : Mem ι K) (r : Cell ι) : Option K := (m r.1)[r.2]?

/-- The instruction's references are in bounds. -/
def InsOk (m : Mem ι K) : Instr ι K → Prop
  | .enter => True
  | .act refs a => a.arg < refs.length ∧ ∀ r ∈ refs, r.2 < (m r.1).length

theorem InsOk.congr {m m' : Mem ι K} (h : ∀ c, (m' c).length = (m c).length) {ins : Instr ι K} (ho : InsOk m ins) :
    InsOk m' ins := by
  cases ins with
  | enter => trivial
  | act refs a => exact ⟨ho.1, fun r hr => by rw [h]; exact ho.2 r hr⟩

theorem rd_update_set (m : Mem ι K) (r : Cell ι) (hr : r.2 < (m r.1).length) (v : K) (r' : Cell ι) :
    rd (Function.update m r.1 ((m r.1).set r.2 v)) r' = if r' = r then some v else rd m r' := by
  unfold rd
  by_cases h1 : r'.1 = r.1
  · rw [h1]
    simp only [Function.update_self]
    by_cases h2 : r'.2 = r.2
    · have : r' = r := Prod.ext h1 h2
      subst this; simp [hr]
    · have : r' ≠ r := fun e => h2 (by rw [e])
      rw [if_neg this, List.getElem?_set_ne (fun e => h2 e.symm)]
  · have : r' ≠ r := fun e => h1 (by rw [e])
    rw [if_neg this, Function.update_of_ne h1]

/-- Executing an instruction: what it changes and what this depends on. -/
theorem exec_local (ins : Instr ι K) (m m2 : Mem ι K) (regs : List K) (hok : InsOk m ins)
    (hlen : ∀ c, (m2 c).length = (m c).length) (heq : ∀ r ∈ ins.cells, rd m2 r = rd m r) :
    ∃ m' m2' regs', ins.exec (m, regs) = some (m', regs') ∧ ins.exec (m2, regs) = some (m2', regs') ∧
      (∀ c, (m' c).length = (m c).length) ∧ (∀ c, (m2' c).length = (m2 c).length) ∧
      (∀ r ∈ ins.cells, rd m2' r = rd m' r) ∧
      (∀ r, r ∉ ins.cells → rd m' r = rd m r) ∧ (∀ r, r ∉ ins.cells → rd m2' r = rd m2 r) := by
  cases ins with
  | enter => exact ⟨m, m2, [], rfl, rfl, fun _ => rfl, fun _ => rfl, heq, fun _ _ => rfl, fun _ _ => rfl⟩
  | act refs a =>
    obtain ⟨hj, hr⟩ := hok
    cases a with
    | load j =>
      have hj' : j < refs.length := hj
      have hmem : refs[j] ∈ refs := List.getElem_mem hj'
      have hv := hr _ hmem
      have e1 : (m refs[j].1)[refs[j].2]? = some ((m refs[j].1)[refs[j].2]'hv) := by simp [hv]
      have e2 : (m2 refs[j].1)[refs[j].2]? = some ((m refs[j].1)[refs[j].2]'hv) := by
        rw [← e1]; exact heq _ hmem
      refine ⟨m, m2, _, exec_load (by simp [hj']) e1, exec_load (by simp [hj']) e2, fun _ => rfl, fun _ => rfl, heq,
        fun _ _ => rfl, fun _ _ => rfl⟩
    | store j f =>
      have hj' : j < refs.length := hj
      have hmem : refs[j] ∈ refs := List.getElem_mem hj'
      have hv := hr _ hmem
      have hv2 : refs[j].2 < (m2 refs[j].1).length := by rw [hlen]; exact hv
      refine ⟨_, _, _, exec_store (by simp [hj']) hv, exec_store (by simp [hj']) hv2, ?_, ?_, ?_, ?_, ?_⟩
      · intro c
        by_cases h : c = refs[j].1
        · subst h; simp
        · simp [Function.update_of_ne h]
      · intro c
        by_cases h : c = refs[j].1
        · subst h; simp
        · simp [Function.update_of_ne h]
      · intro r hr'
        rw [rd_update_set _ _ hv, rd_update_set _ _ hv2, heq r hr']
      · intro r hr'
        rw [rd_update_set _ _ hv, if_neg (fun e => hr' (by rw [e]; exact hmem))]
      · intro r hr'
        rw [rd_update_set _ _ hv2, if_neg (fun e => hr' (by rw [e]; exact hmem))]

section Sched
variable (prog : ℕ → List (Instr ι K)) (m0 : Mem ι K)

/-- What holds while a schedule is executed: task `i` is where it would be if it had run alone. -/
structure SchedInv (s : List ℕ) (st : ParState ι K) : Prop where
  pc : ∀ i, st.pc i = min (s.count i) (prog i).length
  solo : ∀ i, ∃ mi, runInstrs ((prog i).take (st.pc i)) (m0, []) = some (mi, st.regs i) ∧
    (∀ c, (mi c).length = (m0 c).length) ∧ ∀ r ∈ taskCells (prog i), rd st.mem r = rd mi r
  rest : ∀ r, (∀ i, r ∉ taskCells (prog i)) → rd st.mem r = rd m0 r
  len : ∀ c, (st.mem c).length = (m0 c).length

variable {prog m0}

theorem SchedInv.start : SchedInv prog m0 [] (ParState.start m0) where
  pc i := by simp [ParState.start]
  solo i := ⟨m0, by simp [ParState.start, runInstrs], fun _ => rfl, fun _ _ => rfl⟩
  rest _ _ := rfl
  len _ := rfl

theorem cells_mem_task {l : List (Instr ι K)} {ins : Instr ι K} (h : ins ∈ l) {r : Cell ι} (hr : r ∈ ins.cells) :
    r ∈ taskCells l := List.mem_flatMap.mpr ⟨ins, h, hr⟩

theorem SchedInv.step (hok : ∀ i, ∀ ins ∈ prog i, InsOk m0 ins)
    (hdisj : ∀ i j, i ≠ j → ∀ r ∈ taskCells (prog i), r ∉ taskCells (prog j))
    {s : List ℕ} {st : ParState ι K} (hI : SchedInv prog m0 s st) (i : ℕ) :
    ∃ st', parStep prog i st = some st' ∧ SchedInv prog m0 (s ++ [i]) st' := by
  by_cases hfin : st.pc i < (prog i).length
  · set ins := (prog i)[st.pc i] with hins
    have hget : (prog i)[st.pc i]? = some ins := by simp [hins, hfin]
    have hmem : ins ∈ prog i := List.getElem_mem hfin
    obtain ⟨mi, hrun, hlen, heq⟩ := hI.solo i
    have hcell : ∀ r ∈ ins.cells, r ∈ taskCells (prog i) := fun r hr => cells_mem_task hmem hr
    obtain ⟨mi', m', regs', e1, e2, l1, l2, hsame, o1, o2⟩ := exec_local ins mi st.mem (st.regs i)
      ((hok i ins hmem).congr hlen) (fun c => by rw [hI.len, hlen]) (fun r hr => heq r (hcell r hr))
    refine ⟨⟨m', Function.update st.pc i (st.pc i + 1), Function.update st.regs i regs'⟩, ?_, ?_⟩
    · unfold parStep; rw [hget]; simp [e2]
    · have hcount : (s.count i) < (prog i).length := by
        have := hI.pc i
        rcases Nat.lt_or_ge (s.count i) (prog i).length with h | h
        · exact h
        · rw [min_eq_right h] at this; omega
      refine ⟨?_, ?_, ?_, ?_⟩
      · intro j
        by_cases hj : j = i
        · subst hj
          have := hI.pc j
          simp only [Function.update_self, List.count_append, List.count_singleton_self]
          omega
        · simp only [Function.update_of_ne hj, List.count_append]
          rw [hI.pc j, List.count_singleton, if_neg (by simpa using fun e => hj e.symm), Nat.add_zero]
      · intro j
        by_cases hj : j = i
        · subst hj
          refine ⟨mi', ?_, fun c => by rw [l1, hlen], ?_⟩
          · simp only [Function.update_self]
            rw [List.take_succ_eq_append_getElem hfin, runInstrs_append, hrun]
            show runInstrs [ins] (mi, st.regs j) = _
            simp [runInstrs, e1]
          · intro r hr
            by_cases hri : r ∈ ins.cells
            · exact hsame r hri
            · show rd m' r = _
              rw [o2 r hri, o1 r hri]; exact heq r hr
        · obtain ⟨mj, hrunj, hlenj, heqj⟩ := hI.solo j
          refine ⟨mj, ?_, hlenj, ?_⟩
          · simp only [Function.update_of_ne hj]; exact hrunj
          · intro r hr
            show rd m' r = _
            rw [o2 r (fun hri => hdisj j i hj r hr (hcell r hri))]; exact heqj r hr
      · intro r hr
        show rd m' r = _
        rw [o2 r (fun hri => hr i (hcell r hri))]; exact hI.rest r hr
      · intro c; show (m' c).length = _; rw [l2, hI.len]
  · have hnone : (prog i)[st.pc i]? = none := by simp; omega
    refine ⟨st, by unfold parStep; rw [hnone], ?_, hI.solo, hI.rest, hI.len⟩
    intro j
    by_cases hj : j = i
    · subst hj
      have := hI.pc j
      simp only [List.count_append, List.count_singleton_self]
      omega
    · rw [hI.pc j, List.count_append, List.count_singleton, if_neg (by simpa using fun e => hj e.symm), Nat.add_zero]

theorem SchedInv.run (hok : ∀ i, ∀ ins ∈ prog i, InsOk m0 ins)
    (hdisj : ∀ i j, i ≠ j → ∀ r ∈ taskCells (prog i), r ∉ taskCells (prog j)) (l : List ℕ) :
    ∀ (s : List ℕ) (st : ParState ι K), SchedInv prog m0 s st →
      ∃ st', runSchedule prog l st = some st' ∧ SchedInv prog m0 (s ++ l) st' := by
  induction l with
  | nil => intro s st h; exact ⟨st, rfl, by simpa using h⟩
  | cons i l ih =>
    intro s st h
    obtain ⟨st1, e1, h1⟩ := h.step hok hdisj i
    obtain ⟨st2, e2, h2⟩ := ih _ _ h1
    refine ⟨st2, ?_, by simpa using h2⟩
    show (parStep prog i st >>= runSchedule prog l) = _
    rw [e1]; exact e2

/-- Two complete schedules lead to the same memory. -/
theorem schedule_independent (hok : ∀ i, ∀ ins ∈ prog i, InsOk m0 ins)
    (hdisj : ∀ i j, i ≠ j → ∀ r ∈ taskCells (prog i), r ∉ taskCells (prog j))
    (s1 s2 : List ℕ) (c1 : Complete prog s1) (c2 : Complete prog s2) :
    ∃ st1 st2, runSchedule prog s1 (ParState.start m0) = some st1 ∧
      runSchedule prog s2 (ParState.start m0) = some st2 ∧ st1.mem = st2.mem := by
  obtain ⟨st1, e1, h1⟩ := SchedInv.run hok hdisj s1 [] _ SchedInv.start
  obtain ⟨st2, e2, h2⟩ := SchedInv.run hok hdisj s2 [] _ SchedInv.start
  refine ⟨st1, st2, e1, e2, ?_⟩
  funext c
  apply List.ext_getElem?
  intro k
  show rd st1.mem (c, k) = rd st2.mem (c, k)
  by_cases h : ∃ i, (c, k) ∈ taskCells (prog i)
  · obtain ⟨i, hi⟩ := h
    obtain ⟨m1, r1, _, q1⟩ := h1.solo i
    obtain ⟨m2, r2, _, q2⟩ := h2.solo i
    have p1 := h1.pc i
    have p2 := h2.pc i
    simp only [List.nil_append] at p1 p2
    rw [min_eq_right (c1 i)] at p1
    rw [min_eq_right (c2 i)] at p2
    rw [p1] at r1; rw [p2] at r2
    rw [r1] at r2
    have : m1 = m2 := (Prod.mk.inj (Option.some.inj r2)).1
    rw [q1 _ hi, q2 _ hi, this]
  · rw [h1.rest _ (fun i hi => h ⟨i, hi⟩), h2.rest _ (fun i hi => h ⟨i, hi⟩)]

end Sched

/-! ## The sequential schedule -/

/-- Run a task from its beginning. -/
def runTask (l : List (Instr ι K)) : M (Mem ι K) Unit := fun m =>
  match runInstrs l (m, []) with
  | some s => .ok () s.1
  | none => .ub

theorem runSchedule_append (prog : ℕ → List (Instr ι K)) (l1 l2 : List ℕ) (st : ParState ι K) :
    runSchedule prog (l1 ++ l2) st = runSchedule prog l1 st >>= runSchedule prog l2 := by
  induction l1 generalizing st with
  | nil => rfl
  | cons i is ih =>
    show (parStep prog i st >>= runSchedule prog (is ++ l2)) = ((parStep prog i st >>= runSchedule prog is) >>= _)
    cases parStep prog i st with
    | none => rfl
    | some s' => exact ih s'

/-- A task that is scheduled without interruption. -/
theorem runSchedule_replicate (prog : ℕ → List (Instr ι K)) (i : ℕ) (l : List (Instr ι K)) :
    ∀ (st : ParState ι K), (prog i).drop (st.pc i) = l → ∀ (m' : Mem ι K) (regs' : List K),
      runInstrs l (st.mem, st.regs i) = some (m', regs') →
      ∃ st', runSchedule prog (List.replicate l.length i) st = some st' ∧ st'.mem = m' ∧
        ∀ j, j ≠ i → st'.pc j = st.pc j ∧ st'.regs j = st.regs j := by
  induction l with
  | nil =>
    intro st _ m' regs' h
    injection h with h
    exact ⟨st, rfl, by rw [← (Prod.mk.inj h).1], fun _ _ => ⟨rfl, rfl⟩⟩
  | cons ins l ih =>
    intro st hd m' regs' h
    have hlt : st.pc i < (prog i).length := by
      by_contra hge
      rw [List.drop_eq_nil_of_le (by omega)] at hd; cases hd
    have hcons := List.drop_eq_getElem_cons hlt
    rw [hd] at hcons
    injection hcons with hi hl
    rw [runInstrs] at h
    cases he : ins.exec (st.mem, st.regs i) with
    | none => rw [he] at h; cases h
    | some s1 =>
      rw [he] at h
      obtain ⟨st', e', hm, ho⟩ := ih ⟨s1.1, Function.update st.pc i (st.pc i + 1), Function.update st.regs i s1.2⟩
        (by simp [hl]) m' regs' (by simpa using h)
      refine ⟨st', ?_, hm, ?_⟩
      · rw [List.length_cons, List.replicate_succ]
        show (parStep prog i st >>= _) = _
        have hp : parStep prog i st =
            some ⟨s1.1, Function.update st.pc i (st.pc i + 1), Function.update st.regs i s1.2⟩ := by
          unfold parStep
          rw [show (prog i)[st.pc i]? = some ins by simp [hi, hlt]]
          simp [he]
        rw [hp]; exact e'
      · intro j hj
        obtain ⟨a, b⟩ := ho j hj
        rw [a, b]; simp [Function.update_of_ne hj]

/-- Running the tasks one after the other. -/
theorem runSchedule_sequential (prog : ℕ → List (Instr ι K)) (n : ℕ) :
    ∀ (a : ℕ) (st : ParState ι K) (m' : Mem ι K), (∀ j, a ≤ j → st.pc j = 0 ∧ st.regs j = []) →
      (List.range' a n).forM (fun i => runTask (prog i)) st.mem = .ok () m' →
      ∃ st', runSchedule prog ((List.range' a n).flatMap fun i => List.replicate (prog i).length i) st = some st' ∧
        st'.mem = m' := by
  induction n with
  | zero =>
    intro a st m' _ h
    injection h with _ h
    exact ⟨st, rfl, h⟩
  | succ n ih =>
    intro a st m' hfresh h
    rw [List.range'_succ] at h ⊢
    have h' : (runTask (prog a) >>= fun _ => (List.range' (a + 1) n).forM fun i => runTask (prog i)) st.mem =
      .ok () m' := h
    cases hr : runInstrs (prog a) (st.mem, []) with
    | none =>
      rw [M.bind_ub (by unfold runTask; rw [hr])] at h'; cases h'
    | some s1 =>
      rw [M.bind_ok (w' := s1.1) (a := ()) (by unfold runTask; rw [hr])] at h'
      obtain ⟨hp, hg⟩ := hfresh a (le_refl _)
      obtain ⟨st1, e1, hm1, ho⟩ := runSchedule_replicate prog a (prog a) st (by rw [hp]; rfl) s1.1 s1.2
        (by rw [hg, hr])
      obtain ⟨st2, e2, hm2⟩ := ih (a + 1) st1 m' (fun j hj => by
        obtain ⟨x, y⟩ := ho j (by omega)
        rw [x, y]; exact hfresh j (by omega)) (by rw [hm1]; exact h')
      refine ⟨st2, ?_, hm2⟩
      rw [List.flatMap_cons, runSchedule_append, e1]; exact e2

/-- If the tasks are run one after the other, that is one particular schedule. -/
theorem schedule_eq_sequential {prog : ℕ → List (Instr ι K)} {m0 : Mem ι K} (n : ℕ) (hn : ∀ i, n ≤ i → prog i = [])
    (hok : ∀ i, ∀ ins ∈ prog i, InsOk m0 ins)
    (hdisj : ∀ i j, i ≠ j → ∀ r ∈ taskCells (prog i), r ∉ taskCells (prog j))
    (s : List ℕ) (hs : Complete prog s) :
    ∃ st, runSchedule prog s (ParState.start m0) = some st ∧
      (List.range n).forM (fun i => runTask (prog i)) m0 = .ok () st.mem := by
  have hrun : ∀ (l : List (Instr ι K)) (st : Mem ι K × List K), (∀ ins ∈ l, InsOk m0 ins) →
      (∀ c, (st.1 c).length = (m0 c).length) → ∃ st', runInstrs l st = some st' ∧ ∀ c, (st'.1 c).length = (m0 c).length := by
    intro l
    induction l with
    | nil => intro st _ h; exact ⟨st, rfl, h⟩
    | cons ins l ih =>
      intro st ho hl
      obtain ⟨m', _, regs', e1, _, l1, _⟩ := exec_local ins st.1 st.1 st.2 ((ho ins (by simp)).congr hl)
        (fun _ => rfl) (fun _ _ => rfl)
      obtain ⟨st', e2, h2⟩ := ih (m', regs') (fun i hi => ho i (by simp [hi])) (fun c => by
        show (m' c).length = _; rw [l1, hl])
      refine ⟨st', ?_, h2⟩
      rw [runInstrs, e1]; exact e2
  obtain ⟨m', hm', _⟩ := forM_range (fun i => runTask (prog i)) (fun _ w => ∀ c, (w c).length = (m0 c).length) n m0
    (fun _ => rfl) (by
      intro i w _ hw
      obtain ⟨st', e, h⟩ := hrun (prog i) (w, []) (hok i) hw
      exact ⟨st'.1, by unfold runTask; rw [e], h⟩)
  obtain ⟨st1, e1, hm1⟩ := runSchedule_sequential prog n 0 (ParState.start m0) m' (fun _ _ => ⟨rfl, rfl⟩)
    (by rw [← List.range_eq_range']; exact hm')
  have hc : Complete prog ((List.range' 0 n).flatMap fun i => List.replicate (prog i).length i) := by
    intro i
    by_cases hi : i < n
    · rw [List.count_flatMap]
      have hmem : i ∈ List.range' 0 n := by simp [hi]
      have := List.single_le_sum (l := (List.range' 0 n).map (List.count i ∘ fun i => List.replicate (prog i).length i))
        (by intro x _; exact Nat.zero_le x) (prog i).length
        (List.mem_map.mpr ⟨i, hmem, by simp⟩)
      exact this
    · rw [hn i (by omega)]; simp
  obtain ⟨st, st', e, e', hmem⟩ := schedule_independent hok hdisj s _ hs hc
  rw [e1] at e'
  injection e' with e'
  refine ⟨st, e, ?_⟩
  rw [hm', hmem, ← e', hm1]

theorem Interleaving.perm {α : Type} {ls : List (List α)} {l : List α} (h : Interleaving ls l) :
    l.Perm ls.flatten := by
  induction h with
  | done h =>
    rename_i ls
    have : ls.flatten = [] := List.flatten_eq_nil_iff.mpr h
    rw [this]
  | @step ls k a rest l hk _ ih =>
    obtain ⟨hlt, he⟩ := List.getElem?_eq_some_iff.mp hk
    have h1 : ls = ls.take k ++ (a :: rest) :: ls.drop (k + 1) := by
      conv_lhs => rw [← List.take_append_drop k ls, List.drop_eq_getElem_cons hlt, he]
    have h2 : ls.set k rest = ls.take k ++ rest :: ls.drop (k + 1) := List.set_eq_take_append_cons_drop.trans (by simp [hlt])
    rw [h2, List.flatten_append, List.flatten_cons] at ih
    rw [h1, List.flatten_append, List.flatten_cons, List.cons_append]
    exact (ih.cons a).trans List.perm_middle.symm

end Verif
