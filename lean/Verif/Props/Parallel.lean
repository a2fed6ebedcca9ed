import Verif.Lemmas.Parallel
import Verif.Props.Algebra

/-!
# C44: the parallel algebras give the sequential result for every schedule

* `openmp_range_for_each`: every complete interleaving of the iterations of the parallel loop, instruction by
  instruction, leaves the memory that the sequential loop leaves;
* `openmp_range_threads`: in particular every distribution of the iterations over threads and every interleaving of
  the threads;
* `openmp_nested_for_each`: the same for the nested algebra;
* `openmp_race_free`, `openmp_nested_race_free`: two different iterations never refer to the same component;
* `openmp_norm_inf`, `openmp_nested_norm_inf`, `mpi_norm_inf`: the reductions.
-/

set_option linter.unusedSectionVars false
set_option linter.unusedSimpArgs false

namespace Verif
variable {ι K : Type} [DecidableEq ι]

theorem cells_callInstrs (op : List (Action K)) (refs : List (Cell ι)) {r : Cell ι}
    (h : r ∈ taskCells (callInstrs op refs)) : r ∈ refs := by
  obtain ⟨ins, hi, hr⟩ := List.mem_flatMap.mp h
  rcases List.mem_cons.mp hi with rfl | hi
  · simp [Instr.cells] at hr
  · obtain ⟨a, _, rfl⟩ := List.mem_map.mp hi
    exact hr

/-- C44: different iterations of the parallel loop refer to different components, whatever containers coincide: there
is no data race. -/
theorem openmp_race_free (op : List (Action K)) (len : ℕ) (ss : List ι) (i j : ℕ) (hij : i ≠ j) :
    ∀ r ∈ taskCells (ompRangeTask op len ss i), r ∉ taskCells (ompRangeTask op len ss j) := by
  intro r h1 h2
  have key : ∀ k, r ∈ taskCells (ompRangeTask op len ss k) → r.2 = k := by
    intro k h
    unfold ompRangeTask at h
    split at h
    · obtain ⟨c, _, rfl⟩ := List.mem_map.mp (cells_callInstrs op _ h)
      rfl
    · simp [taskCells] at h
  exact hij ((key i h1).symm.trans (key j h2))

theorem ompRange_ok (op : List (Action K)) (s1 : ι) (ss : List ι) (m : Mem ι K)
    (hop : ∀ a ∈ op, a.arg < ss.length + 1) (hlen : ∀ s ∈ ss, (m s1).length ≤ (m s).length) (i : ℕ) :
    ∀ ins ∈ ompRangeTask op (m s1).length (s1 :: ss) i, InsOk m ins := by
  intro ins hi
  unfold ompRangeTask at hi
  split at hi
  · rename_i hlt
    rcases List.mem_cons.mp hi with rfl | hi
    · trivial
    · obtain ⟨a, ha, rfl⟩ := List.mem_map.mp hi
      refine ⟨by simpa using hop a ha, ?_⟩
      intro r hr
      obtain ⟨c, hc, rfl⟩ := List.mem_map.mp hr
      rcases List.mem_cons.mp hc with rfl | hc
      · exact hlt
      · exact lt_of_lt_of_le hlt (hlen c hc)
  · simp at hi

/-- C44: `openmp_range_algebra::for_eachN`: for every complete schedule of the iterations the call returns, without
undefined behaviour, and leaves the memory that the sequential `range_algebra::for_eachN` leaves - for every functor
whose arguments exist and containers that are at least as long as the first one. -/
theorem openmp_range_for_each (op : List (Action K)) (s1 : ι) (ss : List ι) (m : Mem ι K)
    (hop : ∀ a ∈ op, a.arg < ss.length + 1) (hlen : ∀ s ∈ ss, (m s1).length ≤ (m s).length)
    (sched : List ℕ) (hs : Complete (ompRangeTask op (m s1).length (s1 :: ss)) sched) :
    ∃ st, runSchedule (ompRangeTask op (m s1).length (s1 :: ss)) sched (ParState.start m) = some st ∧
      rangeForEach op s1 ss m = .ok () st.mem := by
  obtain ⟨st, e, h⟩ := schedule_eq_sequential (m0 := m) (m s1).length
    (fun i hi => by unfold ompRangeTask; rw [if_neg (by omega)])
    (ompRange_ok op s1 ss m hop hlen) (openmp_race_free op (m s1).length (s1 :: ss)) sched hs
  refine ⟨st, e, ?_⟩
  rw [rangeForEach_eq, ← h]
  have key : ∀ (n : ℕ), n ≤ (m s1).length → ∀ a w, a + n ≤ (m s1).length →
      (List.range' a n).forM (fun i => callOp op ((s1 :: ss).map fun c => (c, i))) w =
      (List.range' a n).forM (fun i => runTask (ompRangeTask op (m s1).length (s1 :: ss) i)) w := by
    intro n
    induction n with
    | zero => intros; rfl
    | succ n ih =>
      intro hn a w ha
      rw [List.range'_succ]
      show (callOp op _ >>= fun _ => _) w = (runTask _ >>= fun _ => _) w
      have : runTask (ompRangeTask op (m s1).length (s1 :: ss) a) =
          callOp op ((s1 :: ss).map fun c => (c, a)) := by
        unfold ompRangeTask; rw [if_pos (by omega)]; rfl
      rw [this, M.bind_apply, M.bind_apply]
      cases callOp op ((s1 :: ss).map fun c => (c, a)) w with
      | ok u w' => exact ih (by omega) (a + 1) w' (by omega)
      | err e w' => rfl
      | ub => rfl
      | div => rfl
  rw [List.range_eq_range']
  exact key _ (le_refl _) 0 m (by omega)

theorem complete_of_interleaving {prog : ℕ → List (Instr ι K)} {n : ℕ} (hn : ∀ i, n ≤ i → prog i = [])
    (threads : List (List ℕ)) (hcover : ∀ i < n, i ∈ threads.flatten) (sched : List ℕ)
    (h : Interleaving (threads.map (threadSteps prog)) sched) : Complete prog sched := by
  intro i
  by_cases hi : i < n
  · rw [h.perm.count_eq]
    have hmem := hcover i hi
    have e : (threads.map (threadSteps prog)).flatten = threadSteps prog threads.flatten := by
      clear h hcover hmem
      induction threads with
      | nil => rfl
      | cons a l ih => simp only [List.map_cons, List.flatten_cons, ih, threadSteps, List.flatMap_append]
    rw [e, threadSteps, List.count_flatMap]
    have := List.single_le_sum (l := threads.flatten.map (List.count i ∘ fun i => List.replicate (prog i).length i))
      (by intro x _; exact Nat.zero_le x) (prog i).length (List.mem_map.mpr ⟨i, hmem, by simp⟩)
    exact this
  · rw [hn i (by omega)]; simp

/-- C44: any number of threads, any distribution of the iterations `0, ..., len-1` over the threads (each thread
handles its iterations in its own order), any interleaving of the threads: the result is the sequential one. -/
theorem openmp_range_threads (op : List (Action K)) (s1 : ι) (ss : List ι) (m : Mem ι K)
    (hop : ∀ a ∈ op, a.arg < ss.length + 1) (hlen : ∀ s ∈ ss, (m s1).length ≤ (m s).length)
    (threads : List (List ℕ)) (hcover : ∀ i < (m s1).length, i ∈ threads.flatten) (sched : List ℕ)
    (hs : Interleaving (threads.map (threadSteps (ompRangeTask op (m s1).length (s1 :: ss)))) sched) :
    ∃ st, runSchedule (ompRangeTask op (m s1).length (s1 :: ss)) sched (ParState.start m) = some st ∧
      rangeForEach op s1 ss m = .ok () st.mem :=
  openmp_range_for_each op s1 ss m hop hlen sched
    (complete_of_interleaving (fun i hi => by unfold ompRangeTask; rw [if_neg (by omega)]) threads hcover sched hs)

/-- C44: in the nested algebra, different iterations refer to components of different sub-states. -/
theorem openmp_nested_race_free (op : List (Action K)) (len : ℕ) (size : ℕ → ℕ) (ss : List ι) (i j : ℕ) (hij : i ≠ j) :
    ∀ r ∈ taskCells (ompNestedTask op len size ss i), r ∉ taskCells (ompNestedTask op len size ss j) := by
  intro r h1 h2
  have key : ∀ k, r ∈ taskCells (ompNestedTask op len size ss k) → r.1.2 = k := by
    intro k h
    unfold ompNestedTask at h
    split at h
    · obtain ⟨ins, hins, hr⟩ := List.mem_flatMap.mp h
      obtain ⟨j', _, hj'⟩ := List.mem_flatMap.mp hins
      have hc := cells_callInstrs op (ss.map fun c => ((c, k), j')) (cells_mem_task hj' hr)
      obtain ⟨c, _, rfl⟩ := List.mem_map.mp hc
      rfl
    · simp [taskCells] at h
  exact hij ((key i h1).symm.trans (key j h2))

/-- The sequential loop over the sub-states of a nested state (what the nested algebra does with one thread). -/
noncomputable def nestedForEach (op : List (Action K)) (len : ℕ) (s1 : ι) (ss : List ι) : M (Mem (ι × ℕ) K) Unit :=
  (List.range len).forM fun i => rangeForEach op (s1, i) (ss.map fun c => (c, i))

/-- Calls of a functor one after the other are one task. -/
theorem forM_callOp (op : List (Action K)) (refs : ℕ → List (Cell ι)) (n : ℕ) (m : Mem ι K) :
    (List.range n).forM (fun j => callOp op (refs j)) m =
      runTask ((List.range n).flatMap fun j => callInstrs op (refs j)) m := by
  rw [List.range_eq_range']
  have key : ∀ (n a : ℕ) (m : Mem ι K) (regs : List K),
      (List.range' a n).forM (fun j => callOp op (refs j)) m =
      match runInstrs ((List.range' a n).flatMap fun j => callInstrs op (refs j)) (m, regs) with
      | some s => .ok () s.1
      | none => .ub := by
    intro n
    induction n with
    | zero => intro a m regs; rfl
    | succ n ih =>
      intro a m regs
      rw [List.range'_succ, List.flatMap_cons, runInstrs_append]
      show (callOp op (refs a) >>= fun _ => (List.range' (a + 1) n).forM fun j => callOp op (refs j)) m = _
      have he : runInstrs (callInstrs op (refs a)) (m, regs) = runInstrs (callInstrs op (refs a)) (m, []) := rfl
      rw [M.bind_apply, he]
      unfold callOp
      cases hc : runInstrs (callInstrs op (refs a)) (m, []) with
      | none => rfl
      | some s => exact ih (a + 1) s.1 s.2
  exact key n 0 m []

/-- C44: `openmp_nested_algebra< range_algebra >::for_eachN`: for every complete schedule of the iterations over the
sub-states the call returns, without undefined behaviour, and leaves the memory that the loop over the sub-states, one
after the other, leaves. -/
theorem openmp_nested_for_each (op : List (Action K)) (len : ℕ) (s1 : ι) (ss : List ι) (m : Mem (ι × ℕ) K)
    (hop : ∀ a ∈ op, a.arg < ss.length + 1)
    (hlen : ∀ s ∈ ss, ∀ i < len, (m (s1, i)).length ≤ (m (s, i)).length) (sched : List ℕ)
    (hs : Complete (ompNestedTask op len (fun i => (m (s1, i)).length) (s1 :: ss)) sched) :
    ∃ st, runSchedule (ompNestedTask op len (fun i => (m (s1, i)).length) (s1 :: ss)) sched (ParState.start m) =
        some st ∧ nestedForEach op len s1 ss m = .ok () st.mem := by
  set prog := ompNestedTask op len (fun i => (m (s1, i)).length) (s1 :: ss) with hprog
  have hok : ∀ i, ∀ ins ∈ prog i, InsOk m ins := by
    intro i ins hi
    rw [hprog] at hi
    unfold ompNestedTask at hi
    split at hi
    · rename_i hlt
      obtain ⟨j, hj, hins⟩ := List.mem_flatMap.mp hi
      have hj' : j < (m (s1, i)).length := by simpa using hj
      rcases List.mem_cons.mp hins with rfl | hins
      · trivial
      · obtain ⟨a, ha, rfl⟩ := List.mem_map.mp hins
        refine ⟨by simpa using hop a ha, ?_⟩
        intro r hr
        obtain ⟨c, hc, rfl⟩ := List.mem_map.mp hr
        rcases List.mem_cons.mp hc with rfl | hc
        · exact hj'
        · exact lt_of_lt_of_le hj' (hlen c hc i hlt)
    · simp at hi
  obtain ⟨st, e, h⟩ := schedule_eq_sequential (m0 := m) len
    (fun i hi => by rw [hprog]; unfold ompNestedTask; rw [if_neg (by omega)]) hok
    (openmp_nested_race_free op len _ (s1 :: ss)) sched hs
  refine ⟨st, e, ?_⟩
  rw [← h]
  unfold nestedForEach
  -- the sizes do not change, so every inner loop is the corresponding task
  have key : ∀ (n a : ℕ) (w : Mem (ι × ℕ) K), a + n ≤ len → (∀ c, (w c).length = (m c).length) →
      (List.range' a n).forM (fun i => rangeForEach op (s1, i) (ss.map fun c => (c, i))) w =
      (List.range' a n).forM (fun i => runTask (prog i)) w := by
    intro n
    induction n with
    | zero => intros; rfl
    | succ n ih =>
      intro a w ha hw
      rw [List.range'_succ]
      show (rangeForEach op (s1, a) (ss.map fun c => (c, a)) >>= fun _ => _) w = (runTask _ >>= fun _ => _) w
      have h1 : rangeForEach op (s1, a) (ss.map fun c => (c, a)) w = runTask (prog a) w := by
        rw [rangeForEach_eq, forM_callOp, hprog]
        unfold ompNestedTask
        rw [if_pos (by omega), hw]
        simp [List.map_map, Function.comp_def]
      rw [M.bind_apply, M.bind_apply, h1]
      have hlenw : ∀ (l : List (Instr (ι × ℕ) K)) (s : Mem (ι × ℕ) K × List K), (∀ ins ∈ l, InsOk m ins) →
          (∀ c, (s.1 c).length = (m c).length) →
          ∃ s', runInstrs l s = some s' ∧ ∀ c, (s'.1 c).length = (m c).length := by
        intro l
        induction l with
        | nil => intro s _ h; exact ⟨s, rfl, h⟩
        | cons ins l ih =>
          intro s ho hl
          obtain ⟨m', _, regs', e1, _, l1, _⟩ := exec_local ins s.1 s.1 s.2 ((ho ins (by simp)).congr hl)
            (fun _ => rfl) (fun _ _ => rfl)
          obtain ⟨s', e2, h2⟩ := ih (m', regs') (fun i hi => ho i (by simp [hi])) (fun c => by
            show (m' c).length = _; rw [l1, hl])
          exact ⟨s', by rw [runInstrs, e1]; exact e2, h2⟩
      obtain ⟨s', e', hl'⟩ := hlenw (prog a) (w, []) (hok a) hw
      have : runTask (prog a) w = .ok () s'.1 := by unfold runTask; rw [e']
      rw [this]
      exact ih (a + 1) s'.1 (by omega) hl'
  rw [List.range_eq_range']
  exact key len 0 m (by omega) (fun _ => rfl)

/-- C44: threads of the nested algebra. -/
theorem openmp_nested_threads (op : List (Action K)) (len : ℕ) (s1 : ι) (ss : List ι) (m : Mem (ι × ℕ) K)
    (hop : ∀ a ∈ op, a.arg < ss.length + 1)
    (hlen : ∀ s ∈ ss, ∀ i < len, (m (s1, i)).length ≤ (m (s, i)).length)
    (threads : List (List ℕ)) (hcover : ∀ i < len, i ∈ threads.flatten) (sched : List ℕ)
    (hs : Interleaving (threads.map
      (threadSteps (ompNestedTask op len (fun i => (m (s1, i)).length) (s1 :: ss)))) sched) :
    ∃ st, runSchedule (ompNestedTask op len (fun i => (m (s1, i)).length) (s1 :: ss)) sched (ParState.start m) =
        some st ∧ nestedForEach op len s1 ss m = .ok () st.mem :=
  openmp_nested_for_each op len s1 ss m hop hlen sched
    (complete_of_interleaving (fun i hi => by unfold ompNestedTask; rw [if_neg (by omega)]) threads hcover sched hs)

/-! ## The reductions -/

section Norm
variable (eps : ℝ)

theorem realOps_max' (a b : ℝ) : (realOps eps).max a b = max a b := by
  simp only [NumOps.max, realOps]
  by_cases h : a < b
  · simp [h, max_eq_right h.le]
  · simp [h, max_eq_left (not_lt.mp h)]

theorem foldl_max_le_iff {α : Type} (g : α → ℝ) (l : List α) (init c : ℝ) :
    l.foldl (fun a i => (realOps eps).max a (g i)) init ≤ c ↔ init ≤ c ∧ ∀ i ∈ l, g i ≤ c := by
  induction l generalizing init with
  | nil => simp
  | cons a l ih =>
    rw [List.foldl_cons, ih, realOps_max', max_le_iff]
    simp [and_assoc]

theorem normInf_le_iff (l : List ℝ) (init c : ℝ) :
    normInf (realOps eps) init l ≤ c ↔ init ≤ c ∧ ∀ v ∈ l, |v| ≤ c := by
  induction l generalizing init with
  | nil => simp [normInf]
  | cons a l ih =>
    rw [normInf, ih, realOps_max', max_le_iff]
    have : (realOps eps).abs a = |a| := rfl
    simp [and_assoc, this]

/-- C44: the parallel reduction of `openmp_range_algebra::norm_inf` is the sequential norm, for every number of
threads, every distribution of the components over the threads and every order in which the threads' results are
combined (`low`, the threads' initial value, is not positive). -/
theorem openmp_norm_inf (low : ℝ) (hlow : low ≤ 0) (n : ℕ) (x : ℕ → ℝ) (threads : List (List ℕ))
    (hcover : ∀ i, i < n ↔ i ∈ threads.flatten) :
    ompNormInf (realOps eps) low x threads = normInf (realOps eps) (lit 0) ((List.range n).map x) := by
  apply eq_of_forall_ge_iff
  intro c
  unfold ompNormInf
  have h0 : (lit 0 : ℝ) = 0 := by simp [lit]
  have e : (threads.map fun is => is.foldl (fun a i => (realOps eps).max a ((realOps eps).abs (x i))) low).foldl
      (realOps eps).max (lit 0) = threads.foldl (fun a is => (realOps eps).max a
        (is.foldl (fun a i => (realOps eps).max a ((realOps eps).abs (x i))) low)) (lit 0) := by
    rw [List.foldl_map]
  rw [e, foldl_max_le_iff, normInf_le_iff, h0]
  constructor
  · rintro ⟨hc, h⟩
    refine ⟨hc, ?_⟩
    intro v hv
    obtain ⟨i, hi, rfl⟩ := List.mem_map.mp hv
    obtain ⟨is, his, hi'⟩ := List.mem_flatten.mp ((hcover i).mp (by simpa using hi))
    have := (foldl_max_le_iff eps (fun i => (realOps eps).abs (x i)) is low c).mp (h is his)
    exact this.2 i hi'
  · rintro ⟨hc, h⟩
    refine ⟨hc, ?_⟩
    intro is his
    refine (foldl_max_le_iff eps (fun i => (realOps eps).abs (x i)) is low c).mpr ⟨hlow.trans hc, ?_⟩
    intro i hi
    exact h (x i) (List.mem_map.mpr ⟨i, by simpa using (hcover i).mpr (List.mem_flatten.mpr ⟨is, his, hi⟩), rfl⟩)

/-- C44: the norm of a nested state is the norm of all its components, for every schedule. -/
theorem openmp_nested_norm_inf (low : ℝ) (hlow : low ≤ 0) (n : ℕ) (x : ℕ → List ℝ) (threads : List (List ℕ))
    (hcover : ∀ i, i < n ↔ i ∈ threads.flatten) :
    ompNestedNormInf (realOps eps) low x threads =
      normInf (realOps eps) (lit 0) ((List.range n).map x).flatten := by
  apply eq_of_forall_ge_iff
  intro c
  unfold ompNestedNormInf
  have h0 : (lit 0 : ℝ) = 0 := by simp [lit]
  have e : (threads.map fun is => is.foldl (fun a i => (realOps eps).max a (normInf (realOps eps) (lit 0) (x i)))
      low).foldl (realOps eps).max (lit 0) = threads.foldl (fun a is => (realOps eps).max a
        (is.foldl (fun a i => (realOps eps).max a (normInf (realOps eps) (lit 0) (x i))) low)) (lit 0) := by
    rw [List.foldl_map]
  rw [e, foldl_max_le_iff, normInf_le_iff, h0]
  constructor
  · rintro ⟨hc, h⟩
    refine ⟨hc, ?_⟩
    intro v hv
    obtain ⟨l, hl, hv'⟩ := List.mem_flatten.mp hv
    obtain ⟨i, hi, rfl⟩ := List.mem_map.mp hl
    obtain ⟨is, his, hi'⟩ := List.mem_flatten.mp ((hcover i).mp (by simpa using hi))
    have := (foldl_max_le_iff eps (fun i => normInf (realOps eps) 0 (x i)) is low c).mp (h is his)
    exact ((normInf_le_iff eps (x i) 0 c).mp (this.2 i hi')).2 v hv'
  · rintro ⟨hc, h⟩
    refine ⟨hc, ?_⟩
    intro is his
    refine (foldl_max_le_iff eps (fun i => normInf (realOps eps) 0 (x i)) is low c).mpr ⟨hlow.trans hc, ?_⟩
    intro i hi
    refine (normInf_le_iff eps (x i) 0 c).mpr ⟨hc, fun v hv => h v ?_⟩
    exact List.mem_flatten.mpr ⟨x i, List.mem_map.mpr
      ⟨i, by simpa using (hcover i).mpr (List.mem_flatten.mpr ⟨is, his, hi⟩), rfl⟩, hv⟩

/-- C44: the norm of a state that is distributed over MPI ranks is the norm of the whole state, in whatever order the
local norms are combined. -/
theorem mpi_norm_inf (pieces combined : List (List ℝ)) (h : combined.Perm pieces) (hne : pieces ≠ []) :
    mpiNormInf (realOps eps) combined = normInf (realOps eps) (lit 0) pieces.flatten := by
  apply eq_of_forall_ge_iff
  intro c
  have h0 : (lit 0 : ℝ) = 0 := by simp [lit]
  cases combined with
  | nil => exact absurd (List.Perm.nil_eq h).symm hne
  | cons p ps =>
    show (ps.map (normInf (realOps eps) (lit 0))).foldl (realOps eps).max (normInf (realOps eps) (lit 0) p) ≤ c ↔ _
    rw [List.foldl_map, foldl_max_le_iff, normInf_le_iff, normInf_le_iff, h0]
    constructor
    · rintro ⟨⟨hc, hp⟩, hps⟩
      refine ⟨hc, ?_⟩
      intro v hv
      obtain ⟨l, hl, hv'⟩ := List.mem_flatten.mp hv
      rcases List.mem_cons.mp (h.mem_iff.mpr hl) with rfl | hl'
      · exact hp v hv'
      · exact ((normInf_le_iff eps l 0 c).mp (hps l hl')).2 v hv'
    · rintro ⟨hc, hv⟩
      refine ⟨⟨hc, fun v hv' => hv v (List.mem_flatten.mpr ⟨p, h.mem_iff.mp (by simp), hv'⟩)⟩, ?_⟩
      intro l hl
      exact (normInf_le_iff eps l 0 c).mpr ⟨hc, fun v hv' =>
        hv v (List.mem_flatten.mpr ⟨l, h.mem_iff.mp (by simp [hl]), hv'⟩)⟩

end Norm

/-! ## Concrete cases -/

/-- Two threads, three components, interleaved instruction by instruction. -/
example : ∃ sched, Interleaving ([[2, 0], [1]].map (threadSteps (ompRangeTask (scaleSumOp [(1 : ℤ), 10]) 3 [0, 0, 1])))
    sched := by
  refine ⟨[2, 1, 2, 1, 2, 1, 2, 1, 0, 0, 0, 0], ?_⟩
  have e : ([[2, 0], [1]].map (threadSteps (ompRangeTask (scaleSumOp [(1 : ℤ), 10]) 3 [0, 0, 1]))) =
    [[2, 2, 2, 2, 0, 0, 0, 0], [1, 1, 1, 1]] := rfl
  rw [e]
  refine .step (k := 0) rfl (.step (k := 1) rfl (.step (k := 0) rfl (.step (k := 1) rfl (.step (k := 0) rfl
    (.step (k := 1) rfl (.step (k := 0) rfl (.step (k := 1) rfl (.step (k := 0) rfl (.step (k := 0) rfl
      (.step (k := 0) rfl (.step (k := 0) rfl (.done ?_))))))))))))
  intro l hl
  have : l ∈ ([[], []] : List (List ℕ)) := hl
  rcases List.mem_cons.mp this with rfl | h
  · rfl
  · simpa using h

/-- The functors only use their arguments. -/
example : ∀ a ∈ scaleSumOp [(1 : ℤ), 10], a.arg < 3 := by
  intro a ha
  have : a = .load 1 ∨ a = .load 2 ∨ ∃ f, a = .store 0 f := by
    simp [scaleSumOp, List.range_succ] at ha
    rcases ha with rfl | rfl | rfl
    · exact Or.inl rfl
    · exact Or.inr (Or.inl rfl)
    · exact Or.inr (Or.inr ⟨_, rfl⟩)
  rcases this with rfl | rfl | ⟨f, rfl⟩ <;> simp [Action.arg]

end Verif
