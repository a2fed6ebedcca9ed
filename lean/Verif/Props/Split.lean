import Verif.Props.Parallel
import Verif.Spec.Parallel
import Mathlib.Tactic.Ring
import Mathlib.Tactic.NormNum
import Mathlib.Tactic.Linarith
import Mathlib.Data.List.GetD

/-!
# C45: splitting and unsplitting states

* `split_offsets_partition`, `split_offsets_balanced`: the slices of `split_offsets`;
* `mpi_unsplit_split`, `mpi_split_balanced`: a vector distributed over MPI ranks;
* `openmp_unsplit_split`, `openmp_split_blocks`: a vector split into an `openmp_state`;
* `openmp_split_unbalanced`: the OpenMP split is not balanced;
* `split_for_each_unsplit`: computing on the parts and unsplitting is computing on the whole vector.
-/

set_option linter.unusedSectionVars false
set_option linter.unusedSimpArgs false

namespace Verif
variable {K : Type}

/-- The offsets without machine arithmetic. -/
theorem splitOffsets_eq (total index parts : ℕ) (ht : total < 2 ^ 63) (hp : parts ≤ 2 ^ 63) (hi : index < parts) :
    splitOffsets total index parts =
      (index * (total / parts) + min index (total % parts),
        (index + 1) * (total / parts) + min (index + 1) (total % parts)) := by
  have hr : total % parts < parts := Nat.mod_lt _ (by omega)
  have hhi : (max 0 (toPtrdiff (sizeSub index (total % parts)))).toNat = index - total % parts := by
    unfold sizeSub toPtrdiff
    by_cases h : total % parts ≤ index
    · have e : (index + 2 ^ 64 - total % parts) % 2 ^ 64 = index - total % parts := by
        have : index + 2 ^ 64 - total % parts = (index - total % parts) + 2 ^ 64 := by omega
        rw [this, Nat.add_mod_right]
        exact Nat.mod_eq_of_lt (by omega)
      rw [e, if_pos (by omega)]
      omega
    · have e : (index + 2 ^ 64 - total % parts) % 2 ^ 64 = index + 2 ^ 64 - total % parts :=
        Nat.mod_eq_of_lt (by omega)
      rw [e, if_neg (by omega)]
      omega
  unfold splitOffsets
  simp only [hhi]
  have h1 : min index (total % parts) * (total / parts + 1) + (index - total % parts) * (total / parts) =
      index * (total / parts) + min index (total % parts) := by
    rcases le_total index (total % parts) with h | h
    · rw [min_eq_left h, Nat.sub_eq_zero_of_le h]; ring
    · rw [min_eq_right h]
      obtain ⟨d, rfl⟩ := Nat.exists_eq_add_of_le h
      rw [Nat.add_sub_cancel_left]; ring
  rw [h1]
  refine Prod.ext rfl ?_
  simp only
  by_cases h : index < total % parts
  · rw [if_pos h, min_eq_left h.le, min_eq_left (by omega)]; ring
  · rw [if_neg h, min_eq_right (by omega), min_eq_right (by omega)]; ring

/-- C45: the slices start at 0, follow each other without gap or overlap, and end at the end of the range (lengths
below `2^63`, at most `2^63` parts). -/
theorem split_offsets_partition (total parts : ℕ) (ht : total < 2 ^ 63) (hp : parts ≤ 2 ^ 63) (h0 : 0 < parts) :
    (splitOffsets total 0 parts).1 = 0 ∧
    (∀ i, i + 1 < parts → (splitOffsets total i parts).2 = (splitOffsets total (i + 1) parts).1) ∧
    (∀ i < parts, (splitOffsets total i parts).1 ≤ (splitOffsets total i parts).2) ∧
    (splitOffsets total (parts - 1) parts).2 = total := by
  refine ⟨?_, ?_, ?_, ?_⟩
  · rw [splitOffsets_eq total 0 parts ht hp h0]; simp
  · intro i hi
    rw [splitOffsets_eq total i parts ht hp (by omega), splitOffsets_eq total (i + 1) parts ht hp hi]
  · intro i hi
    rw [splitOffsets_eq total i parts ht hp hi]
    dsimp only
    generalize total / parts = q
    generalize total % parts = r
    have : (i + 1) * q = i * q + q := by ring
    omega
  · rw [splitOffsets_eq total _ parts ht hp (by omega)]
    dsimp only
    rw [Nat.sub_add_cancel h0, min_eq_right (Nat.mod_lt _ h0).le]
    exact Nat.div_add_mod total parts

/-- C45: the lengths of the slices differ by at most one: each is the quotient or the quotient plus one. -/
theorem split_offsets_balanced (total parts i : ℕ) (ht : total < 2 ^ 63) (hp : parts ≤ 2 ^ 63) (hi : i < parts) :
    (splitOffsets total i parts).2 - (splitOffsets total i parts).1 =
      total / parts + if i < total % parts then 1 else 0 := by
  rw [splitOffsets_eq total i parts ht hp hi]
  dsimp only
  generalize total / parts = q
  generalize total % parts = r
  have : (i + 1) * q = i * q + q := by ring
  split <;> omega

/-- Consecutive blocks of a list make up the list. -/
theorem flatten_blocks (cut : ℕ → ℕ) (l : List K) (h0 : cut 0 = 0) (hmono : ∀ i, cut i ≤ cut (i + 1)) (n : ℕ) :
    ((List.range n).map (block cut l)).flatten = l.take (cut n) := by
  induction n with
  | zero => simp [h0]
  | succ n ih =>
    rw [List.range_succ, List.map_append, List.flatten_append, ih]
    simp only [List.map_cons, List.map_nil, List.flatten_cons, List.flatten_nil, List.append_nil, block]
    conv_rhs => rw [← List.take_append_drop (cut n) (l.take (cut (n + 1)))]
    rw [List.take_take, min_eq_left (hmono n)]

/-- The places where `split_offsets` cuts. -/
def mpiCut (total parts i : ℕ) : ℕ := i * (total / parts) + min i (total % parts)

theorem mpiSplit_eq (l : List K) (ranks : ℕ) (hl : l.length < 2 ^ 63) (hr : ranks ≤ 2 ^ 63) :
    mpiSplit l ranks = (List.range ranks).map (block (mpiCut l.length ranks) l) := by
  unfold mpiSplit
  apply List.map_congr_left
  intro i hi
  unfold splitRange block mpiCut
  rw [splitOffsets_eq l.length i ranks hl hr (by simpa using hi)]

theorem mpiCut_mono (total parts i : ℕ) : mpiCut total parts i ≤ mpiCut total parts (i + 1) := by
  unfold mpiCut
  generalize total / parts = q
  generalize total % parts = r
  have : (i + 1) * q = i * q + q := by ring
  omega

theorem mpiCut_end (total parts : ℕ) (h0 : 0 < parts) : mpiCut total parts parts = total := by
  unfold mpiCut
  rw [min_eq_right (Nat.mod_lt _ h0).le]
  exact Nat.div_add_mod total parts

theorem sum_lengths_eq (l : List (List K)) : (l.map List.length).sum = l.flatten.length := by
  rw [List.length_flatten]

/-- C45: splitting a vector over any number of MPI ranks and unsplitting it into a vector of the same size returns the
original vector; a longer target keeps its tail. -/
theorem mpi_unsplit_split (l dst : List K) (ranks : ℕ) (h0 : 0 < ranks) (hl : l.length < 2 ^ 63)
    (hr : ranks ≤ 2 ^ 63) (hd : l.length ≤ dst.length) :
    mpiUnsplit (mpiSplit l ranks) dst = some (l ++ dst.drop l.length) := by
  have e : (mpiSplit l ranks).flatten = l := by
    rw [mpiSplit_eq l ranks hl hr, flatten_blocks _ _ (by simp [mpiCut]) (mpiCut_mono _ _),
      mpiCut_end _ _ h0, List.take_length]
  unfold mpiUnsplit
  rw [sum_lengths_eq, e, if_pos hd]

/-- C45: the pieces on the ranks differ in length by at most one. -/
theorem mpi_split_balanced (l : List K) (ranks : ℕ) (hl : l.length < 2 ^ 63) (hr : ranks ≤ 2 ^ 63) (i : ℕ)
    (hi : i < ranks) :
    ∃ p, (mpiSplit l ranks)[i]? = some p ∧ p.length = l.length / ranks + if i < l.length % ranks then 1 else 0 := by
  rw [mpiSplit_eq l ranks hl hr]
  refine ⟨block (mpiCut l.length ranks) l i, by simp [hi], ?_⟩
  have hb := split_offsets_balanced l.length ranks i hl hr hi
  rw [splitOffsets_eq l.length i ranks hl hr hi] at hb
  have hle : mpiCut l.length ranks (i + 1) ≤ l.length := by
    have hm : Monotone (mpiCut l.length ranks) := monotone_nat_of_le_succ (mpiCut_mono _ _)
    calc mpiCut l.length ranks (i + 1) ≤ mpiCut l.length ranks ranks := hm hi
      _ = l.length := mpiCut_end _ _ (by omega)
  unfold block
  rw [List.length_drop, List.length_take, min_eq_left hle]
  exact hb

/-- A target that is too small is not written past its end silently: it is outside the contract. -/
theorem mpi_unsplit_small (l dst : List K) (ranks : ℕ) (h0 : 0 < ranks) (hl : l.length < 2 ^ 63)
    (hr : ranks ≤ 2 ^ 63) (hd : dst.length < l.length) : mpiUnsplit (mpiSplit l ranks) dst = none := by
  have e : (mpiSplit l ranks).flatten = l := by
    rw [mpiSplit_eq l ranks hl hr, flatten_blocks _ _ (by simp [mpiCut]) (mpiCut_mono _ _),
      mpiCut_end _ _ h0, List.take_length]
  unfold mpiUnsplit
  rw [sum_lengths_eq, e, if_neg (by omega)]

/-- The places where the OpenMP split cuts. -/
def ompCut (total n i : ℕ) : ℕ := if n ≤ i then total else i * (total / n)

theorem ompSplit_eq (maxThreads : ℕ) (l : List K) (blocks : ℕ) :
    ompSplit maxThreads l blocks =
      (List.range (if blocks = 0 then maxThreads else blocks)).map
        (block (ompCut l.length (if blocks = 0 then maxThreads else blocks)) l) := by
  unfold ompSplit
  apply List.map_congr_left
  intro i hi
  generalize hn : (if blocks = 0 then maxThreads else blocks) = n at hi ⊢
  have hin : i < n := by simpa using hi
  unfold block ompCut
  rw [if_neg (show ¬ n ≤ i by omega)]
  have hpart : n * (l.length / n) ≤ l.length := Nat.mul_div_le _ _
  have e1 : i * (l.length / n) + l.length / n = (i + 1) * (l.length / n) := by ring
  by_cases h : n ≤ i + 1
  · have : i + 1 = n := by omega
    simp only [this, true_or, if_true, le_refl]
  · have h2 : (i + 1) * (l.length / n) ≤ l.length := le_trans (Nat.mul_le_mul_right _ (by omega)) hpart
    rw [if_neg h]
    dsimp only
    rw [if_neg (by push Not; constructor <;> omega), e1]

theorem ompCut_mono (total n i : ℕ) (hn : 0 < n) : ompCut total n i ≤ ompCut total n (i + 1) := by
  unfold ompCut
  have hpart : n * (total / n) ≤ total := Nat.mul_div_le _ _
  by_cases h1 : n ≤ i
  · rw [if_pos h1, if_pos (by omega)]
  · rw [if_neg h1]
    by_cases h2 : n ≤ i + 1
    · rw [if_pos h2]
      exact le_trans (Nat.mul_le_mul_right _ (by omega)) hpart
    · rw [if_neg h2]
      exact Nat.mul_le_mul_right _ (by omega)

/-- C45: splitting a vector into an `openmp_state` and unsplitting it returns the original vector, for every number of
blocks the state already has, or, if it has none, every number of threads. -/
theorem openmp_unsplit_split (maxThreads : ℕ) (l : List K) (blocks : ℕ) (h : 0 < blocks ∨ 0 < maxThreads) :
    ompUnsplit (ompSplit maxThreads l blocks) = l := by
  unfold ompUnsplit
  rw [ompSplit_eq]
  generalize hn : (if blocks = 0 then maxThreads else blocks) = n
  have hn0 : 0 < n := by
    subst hn
    split <;> omega
  rw [flatten_blocks (ompCut l.length n) l ?_ (fun i => ompCut_mono _ _ i hn0)]
  · simp [ompCut]
  · unfold ompCut
    rw [if_neg (by omega)]; simp

/-- C45: the number of blocks is kept; an empty state gets one block per thread. -/
theorem openmp_split_blocks (maxThreads : ℕ) (l : List K) (blocks : ℕ) :
    (ompSplit maxThreads l blocks).length = if blocks = 0 then maxThreads else blocks := by
  rw [ompSplit_eq]; simp

/-- Every block but the last has the length `size / blocks`; the last one gets all of the remainder. -/
theorem openmp_split_lengths (maxThreads : ℕ) (l : List K) (blocks i : ℕ) (hb : 0 < blocks) (hi : i < blocks) :
    ∃ p, (ompSplit maxThreads l blocks)[i]? = some p ∧
      p.length = l.length / blocks + if i + 1 = blocks then l.length % blocks else 0 := by
  rw [ompSplit_eq, if_neg (by omega)]
  refine ⟨block (ompCut l.length blocks) l i, by simp [hi], ?_⟩
  have hpart : blocks * (l.length / blocks) ≤ l.length := Nat.mul_div_le _ _
  have hdm := Nat.div_add_mod l.length blocks
  have e1 : (i + 1) * (l.length / blocks) = i * (l.length / blocks) + l.length / blocks := by ring
  unfold block ompCut
  rw [List.length_drop, List.length_take, if_neg (show ¬ blocks ≤ i by omega)]
  generalize l.length / blocks = q at *
  generalize l.length % blocks = r at *
  generalize l.length = n at *
  by_cases h : i + 1 = blocks
  · rw [if_pos (by omega), if_pos h, min_self]
    subst h
    rw [e1] at hdm
    omega
  · rw [if_neg (by omega), if_neg h]
    have h2 : (i + 1) * q ≤ n := le_trans (Nat.mul_le_mul_right _ (by omega)) hpart
    rw [min_eq_left h2]
    omega

/-- C45 (negation): the blocks of an `openmp_state` are not balanced: for every number `n ≥ 3` of blocks there is a
vector, whose last block is longer than the others by `n - 1 ≥ 2` elements. -/
theorem openmp_split_unbalanced (maxThreads n : ℕ) (hn : 3 ≤ n) (v : K) :
    ∃ (l p q : List K), (ompSplit maxThreads l n)[0]? = some p ∧ (ompSplit maxThreads l n)[n - 1]? = some q ∧
      q.length = p.length + (n - 1) := by
  refine ⟨List.replicate (n + (n - 1)) v, ?_⟩
  obtain ⟨p, hp, lp⟩ := openmp_split_lengths maxThreads (List.replicate (n + (n - 1)) v) n 0 (by omega) (by omega)
  obtain ⟨q, hq, lq⟩ := openmp_split_lengths maxThreads (List.replicate (n + (n - 1)) v) n (n - 1) (by omega) (by omega)
  refine ⟨p, q, hp, hq, ?_⟩
  have e : (n + (n - 1)) % n = n - 1 := by
    rw [Nat.add_mod_left]; exact Nat.mod_eq_of_lt (by omega)
  rw [lp, lq, if_neg (show ¬ 0 + 1 = n by omega), if_pos (show n - 1 + 1 = n by omega), List.length_replicate, e]
  simp

/-! ## Computing on the parts -/

section Parts
variable {ι : Type} [DecidableEq ι]

theorem getElem?_block (cut : ℕ → ℕ) (l : List K) (i j : ℕ) :
    (block cut l i)[j]? = if cut i + j < cut (i + 1) then l[cut i + j]? else none := by
  unfold block
  rw [List.getElem?_drop, List.getElem?_take]

theorem length_block (cut : ℕ → ℕ) (l : List K) (i : ℕ) (h : cut (i + 1) ≤ l.length) :
    (block cut l i).length = cut (i + 1) - cut i := by
  unfold block
  rw [List.length_drop, List.length_take, min_eq_left h]

/-- Writing a component of the whole list is writing the component of the block it belongs to. -/
theorem block_set (cut : ℕ → ℕ) (hm : Monotone cut) (l : List K) (i j k : ℕ) (v : K) (hj : cut i + j < cut (i + 1)) :
    block cut (l.set (cut i + j) v) k = if k = i then (block cut l i).set j v else block cut l k := by
  apply List.ext_getElem?
  intro a
  by_cases hk : k = i
  · subst hk
    rw [if_pos rfl, getElem?_block, List.getElem?_set, List.getElem?_set, getElem?_block]
    unfold block
    rw [List.length_drop, List.length_take]
    by_cases hja : j = a
    · subst hja
      simp only [hj, if_true]
      by_cases hlt : cut k + j < l.length
      · rw [if_pos hlt, if_pos (by omega)]
      · rw [if_neg hlt, if_neg (by omega)]
    · rw [if_neg hja, if_neg (show ¬ cut k + j = cut k + a by omega)]
  · rw [if_neg hk, getElem?_block, getElem?_block, List.getElem?_set]
    by_cases ha : cut k + a < cut (k + 1)
    · rw [if_pos ha, if_pos ha, if_neg]
      rcases Nat.lt_or_gt_of_ne hk with h | h
      · have := hm (show k + 1 ≤ i by omega)
        omega
      · have := hm (show i + 1 ≤ k by omega)
        omega
    · rw [if_neg ha, if_neg ha]

/-- The nested states of `m` are the blocks of the states of `mf`. -/
def SplitOf (cut : ℕ → ℕ) (n : ℕ) (cs : List ι) (m : Mem (ι × ℕ) K) (mf : Mem ι K) : Prop :=
  ∀ c ∈ cs, (mf c).length = n ∧ ∀ i, m (c, i) = block cut (mf c) i

theorem SplitOf.exec {cut : ℕ → ℕ} {n nb : ℕ} {cs : List ι} (hm : Monotone cut) (hend : cut nb = n)
    {i j : ℕ} (hi : i < nb) (hj : cut i + j < cut (i + 1)) (a : Action K) (ha : a.arg < cs.length)
    {m : Mem (ι × ℕ) K} {mf : Mem ι K} (regs : List K) (h : SplitOf cut n cs m mf) :
    ∃ m' mf' regs', a.exec (cs.map fun c => ((c, i), j)) (m, regs) = some (m', regs') ∧
      a.exec (cs.map fun c => (c, cut i + j)) (mf, regs) = some (mf', regs') ∧ SplitOf cut n cs m' mf' := by
  have hle : cut (i + 1) ≤ n := by rw [← hend]; exact hm hi
  cases a with
  | load k =>
    have hk : k < cs.length := ha
    obtain ⟨hl, hb⟩ := h cs[k] (List.getElem_mem _)
    refine ⟨m, mf, regs ++ [(mf cs[k])[cut i + j]'(by omega)], ?_, ?_, h⟩
    · simp [Action.exec, hk, hb, getElem?_block, hj, show cut i + j < (mf cs[k]).length by omega]
    · simp [Action.exec, hk, show cut i + j < (mf cs[k]).length by omega]
  | store k f =>
    have hk : k < cs.length := ha
    obtain ⟨hl, hb⟩ := h cs[k] (List.getElem_mem _)
    refine ⟨Function.update m (cs[k], i) ((m (cs[k], i)).set j (f regs)),
      Function.update mf cs[k] ((mf cs[k]).set (cut i + j) (f regs)), regs, ?_, ?_, ?_⟩
    · have : j < (m (cs[k], i)).length := by
        rw [hb, length_block _ _ _ (by omega)]; omega
      simp [Action.exec, hk, this]
    · simp [Action.exec, hk, show cut i + j < (mf cs[k]).length by omega]
    · intro c hc
      obtain ⟨hl', hb'⟩ := h c hc
      by_cases hck : c = cs[k]
      · subst hck
        refine ⟨by simp [hl], ?_⟩
        intro i'
        rw [Function.update_self, block_set cut hm _ _ _ _ _ hj]
        by_cases hii : i' = i
        · subst hii; simp [hb]
        · rw [if_neg hii, Function.update_of_ne (by simpa using hii), hb]
      · refine ⟨by rw [Function.update_of_ne hck]; exact hl', ?_⟩
        intro i'
        rw [Function.update_of_ne hck, Function.update_of_ne (by simp [hck]), hb']

theorem SplitOf.call {cut : ℕ → ℕ} {n nb : ℕ} {cs : List ι} (hm : Monotone cut) (hend : cut nb = n)
    {i j : ℕ} (hi : i < nb) (hj : cut i + j < cut (i + 1)) (op : List (Action K))
    (hop : ∀ a ∈ op, a.arg < cs.length) {m : Mem (ι × ℕ) K} {mf : Mem ι K} (h : SplitOf cut n cs m mf) :
    ∃ m' mf', callOp op (cs.map fun c => ((c, i), j)) m = .ok () m' ∧
      callOp op (cs.map fun c => (c, cut i + j)) mf = .ok () mf' ∧ SplitOf cut n cs m' mf' := by
  have key : ∀ (l : List (Action K)), (∀ a ∈ l, a.arg < cs.length) → ∀ (m : Mem (ι × ℕ) K) (mf : Mem ι K) regs,
      SplitOf cut n cs m mf → ∃ m' mf' regs',
        runInstrs (l.map (.act (cs.map fun c => ((c, i), j)))) (m, regs) = some (m', regs') ∧
        runInstrs (l.map (.act (cs.map fun c => (c, cut i + j)))) (mf, regs) = some (mf', regs') ∧
        SplitOf cut n cs m' mf' := by
    intro l
    induction l with
    | nil => intro _ m mf regs h; exact ⟨m, mf, regs, rfl, rfl, h⟩
    | cons a l ih =>
      intro ha m mf regs h
      obtain ⟨m1, mf1, regs1, e1, e2, h1⟩ := SplitOf.exec hm hend hi hj a (ha a (by simp)) regs h
      obtain ⟨m2, mf2, regs2, e3, e4, h2⟩ := ih (fun b hb => ha b (by simp [hb])) m1 mf1 regs1 h1
      refine ⟨m2, mf2, regs2, ?_, ?_, h2⟩
      · show ((Instr.act _ a).exec (m, regs) >>= _) = _
        rw [show (Instr.act (cs.map fun c => ((c, i), j)) a).exec (m, regs) = _ from e1]
        exact e3
      · show ((Instr.act _ a).exec (mf, regs) >>= _) = _
        rw [show (Instr.act (cs.map fun c => (c, cut i + j)) a).exec (mf, regs) = _ from e2]
        exact e4
  obtain ⟨m', mf', regs', e1, e2, h'⟩ := key op hop m mf [] h
  refine ⟨m', mf', ?_, ?_, h'⟩
  · unfold callOp
    rw [show runInstrs (callInstrs op (cs.map fun c => ((c, i), j))) (m, []) = _ from e1]
  · unfold callOp
    rw [show runInstrs (callInstrs op (cs.map fun c => (c, cut i + j))) (mf, []) = _ from e2]

theorem SplitOf.inner {cut : ℕ → ℕ} {n nb : ℕ} {cs : List ι} (hm : Monotone cut) (hend : cut nb = n)
    {i : ℕ} (hi : i < nb) (op : List (Action K)) (hop : ∀ a ∈ op, a.arg < cs.length) :
    ∀ (k j : ℕ), cut i + j + k ≤ cut (i + 1) → ∀ (m : Mem (ι × ℕ) K) (mf : Mem ι K), SplitOf cut n cs m mf →
    ∃ m' mf', (List.range' j k).forM (fun j => callOp op (cs.map fun c => ((c, i), j))) m = .ok () m' ∧
      (List.range' (cut i + j) k).forM (fun q => callOp op (cs.map fun c => (c, q))) mf = .ok () mf' ∧
      SplitOf cut n cs m' mf' := by
  intro k
  induction k with
  | zero => intro j _ m mf h; exact ⟨m, mf, rfl, rfl, h⟩
  | succ k ih =>
    intro j hj m mf h
    obtain ⟨m1, mf1, e1, e2, h1⟩ := SplitOf.call hm hend hi (j := j) (by omega) op hop h
    obtain ⟨m2, mf2, e3, e4, h2⟩ := ih (j + 1) (by omega) m1 mf1 h1
    refine ⟨m2, mf2, ?_, ?_, h2⟩
    · rw [List.range'_succ]
      show (callOp op _ >>= fun _ => _) m = _
      rw [M.bind_apply, e1]; exact e3
    · rw [List.range'_succ]
      show (callOp op _ >>= fun _ => _) mf = _
      rw [M.bind_apply, e2]; exact e4

/-- C45: computing on the parts is computing on the whole.  Split states (cut anywhere into `nb` consecutive parts);
apply any functor with the nested OpenMP algebra, in any complete schedule; the parts of every argument are then the
parts of what the sequential algebra leaves on the unsplit states, and unsplitting them gives these states. -/
theorem split_for_each_unsplit (cut : ℕ → ℕ) (hm : Monotone cut) (h0 : cut 0 = 0) (nb n : ℕ) (hend : cut nb = n)
    (op : List (Action K)) (s1 : ι) (ss : List ι) (hop : ∀ a ∈ op, a.arg < ss.length + 1)
    (m : Mem (ι × ℕ) K) (mf : Mem ι K)
    (hsplit : ∀ c ∈ s1 :: ss, (mf c).length = n ∧ ∀ i, m (c, i) = block cut (mf c) i) (sched : List ℕ)
    (hs : Complete (ompNestedTask op nb (fun i => (m (s1, i)).length) (s1 :: ss)) sched) :
    ∃ st mf', runSchedule (ompNestedTask op nb (fun i => (m (s1, i)).length) (s1 :: ss)) sched (ParState.start m) =
        some st ∧ rangeForEach op s1 ss mf = .ok () mf' ∧
      ∀ c ∈ s1 :: ss, ((List.range nb).map fun i => st.mem (c, i)).flatten = mf' c := by
  have hcutle : ∀ i < nb, cut (i + 1) ≤ n := fun i hi => by rw [← hend]; exact hm hi
  have hlen : ∀ c ∈ s1 :: ss, ∀ i < nb, (m (c, i)).length = cut (i + 1) - cut i := by
    intro c hc i hi
    rw [(hsplit c hc).2 i, length_block _ _ _ (by rw [(hsplit c hc).1]; exact hcutle i hi)]
  obtain ⟨st, e, hst⟩ := openmp_nested_for_each op nb s1 ss m hop
    (fun s hs' i hi => by rw [hlen s1 (by simp) i hi, hlen s (by simp [hs']) i hi]) sched hs
  have key : ∀ (k a : ℕ), a + k ≤ nb → ∀ (m : Mem (ι × ℕ) K) (mf : Mem ι K), SplitOf cut n (s1 :: ss) m mf →
      ∃ m' mf', (List.range' a k).forM (fun i => rangeForEach op (s1, i) (ss.map fun c => (c, i))) m = .ok () m' ∧
        (List.range' (cut a) (cut (a + k) - cut a)).forM (fun q => callOp op ((s1 :: ss).map fun c => (c, q))) mf =
          .ok () mf' ∧ SplitOf cut n (s1 :: ss) m' mf' := by
    intro k
    induction k with
    | zero =>
      intro a _ m mf h
      refine ⟨m, mf, rfl, ?_, h⟩
      simp only [Nat.add_zero, Nat.sub_self]
      rfl
    | succ k ih =>
      intro a ha m mf h
      have hmono1 : cut a ≤ cut (a + 1) := hm (by omega)
      have hmono2 : cut (a + 1) ≤ cut (a + (k + 1)) := hm (by omega)
      obtain ⟨m1, mf1, e1, e2, h1⟩ := SplitOf.inner hm hend (show a < nb by omega) op
        (by simpa using hop) (cut (a + 1) - cut a) 0 (by omega) m mf h
      obtain ⟨m2, mf2, e3, e4, h2⟩ := ih (a + 1) (by omega) m1 mf1 h1
      refine ⟨m2, mf2, ?_, ?_, h2⟩
      · rw [List.range'_succ]
        show (rangeForEach op (s1, a) (ss.map fun c => (c, a)) >>= fun _ => _) m = _
        have hl : (m (s1, a)).length = cut (a + 1) - cut a := by
          rw [(h s1 (by simp)).2 a, length_block _ _ _ (by rw [(h s1 (by simp)).1]; exact hcutle a (by omega))]
        have : rangeForEach op (s1, a) (ss.map fun c => (c, a)) m = .ok () m1 := by
          rw [rangeForEach_eq, hl, ← e1, List.range_eq_range']
          simp only [List.map_cons, List.map_map, Function.comp_def]
        rw [M.bind_apply, this]
        exact e3
      · have hsplit' : List.range' (cut a) (cut (a + (k + 1)) - cut a) =
            List.range' (cut a) (cut (a + 1) - cut a) ++
              List.range' (cut (a + 1)) (cut (a + 1 + k) - cut (a + 1)) := by
          have e5 : a + 1 + k = a + (k + 1) := by omega
          have := List.range'_append_1 (s := cut a) (m := cut (a + 1) - cut a)
            (n := cut (a + (k + 1)) - cut (a + 1))
          rw [show cut a + (cut (a + 1) - cut a) = cut (a + 1) by omega] at this
          rw [e5, this]
          congr 1
          omega
        have happ : ∀ (l1 l2 : List ℕ) (f : ℕ → M (Mem ι K) Unit) (w : Mem ι K),
            (l1 ++ l2).forM f w = (l1.forM f >>= fun _ => l2.forM f) w := by
          intro l1 l2 f
          induction l1 with
          | nil => intro w; rfl
          | cons x l1 ih =>
            intro w
            show (f x >>= fun _ => (l1 ++ l2).forM f) w = ((f x >>= fun _ => l1.forM f) >>= _) w
            rw [M.bind_apply, M.bind_apply, M.bind_apply]
            cases f x w with
            | ok u w' => exact ih w'
            | err e w' => rfl
            | ub => rfl
            | div => rfl
        rw [hsplit', happ, M.bind_apply]
        rw [show cut a + 0 = cut a from rfl] at e2
        rw [e2]
        exact e4
  obtain ⟨m', mf', e1, e2, h'⟩ := key nb 0 (by omega) m mf hsplit
  rw [h0, Nat.zero_add, hend, Nat.sub_zero] at e2
  refine ⟨st, mf', e, ?_, ?_⟩
  · rw [rangeForEach_eq, (hsplit s1 (by simp)).1, List.range_eq_range']
    exact e2
  · have hmem : st.mem = m' := by
      unfold nestedForEach at hst
      rw [List.range_eq_range', e1] at hst
      injection hst with _ h2
      exact h2.symm
    intro c hc
    rw [hmem]
    have : (fun i => m' (c, i)) = block cut (mf' c) := funext (h' c hc).2
    rw [this, flatten_blocks cut _ h0 (fun i => hm (Nat.le_succ i)), hend, ← (h' c hc).1, List.take_length]

end Parts

/-- The cuts of both splits meet the hypotheses. -/
example : Monotone (ompCut 11 4) ∧ ompCut 11 4 0 = 0 ∧ ompCut 11 4 4 = 11 :=
  ⟨monotone_nat_of_le_succ (fun i => ompCut_mono 11 4 i (by norm_num)), rfl, rfl⟩
example : Monotone (mpiCut 11 4) ∧ mpiCut 11 4 0 = 0 ∧ mpiCut 11 4 4 = 11 :=
  ⟨monotone_nat_of_le_succ (mpiCut_mono 11 4), rfl, rfl⟩
example : mpiSplit [1, 2, 3, 4, 5, 6, 7, 8, 9, 10, 11] 4 = [[1, 2, 3], [4, 5, 6], [7, 8, 9], [10, 11]] := by
  rw [mpiSplit_eq _ _ (by norm_num) (by norm_num)]; rfl
example : ompSplit 0 [1, 2, 3, 4, 5, 6, 7, 8, 9, 10, 11] 4 = [[1, 2], [3, 4], [5, 6], [7, 8, 9, 10, 11]] := rfl
example : ompSplit 3 [1, 2] 0 = [[], [], [1, 2]] := rfl

end Verif
