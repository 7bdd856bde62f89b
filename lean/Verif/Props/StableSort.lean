import Verif.Props.SameFile
import Verif.Spec.StableSort
/-!
# C100: the parallel writer sorts stably
-/
set_option linter.unusedSimpArgs false
set_option linter.unusedVariables false
set_option linter.flexible false
namespace OsmIo
open Wire Spec

theorem sameKey_iff (a b : Element) : SameKey a b ↔ ¬ Before a b ∧ ¬ Before b a := by
  have h := (C23_order_total a b a).1
  tauto

theorem sort_withKey (S : StdSort) {l : List Element} (h : NoSentinel l) (k : Element) : withKey k (S.sort l) = withKey k l := by
  rw [sort_eq S h]
  have hsub : List.Sublist (withKey k l) (l.mergeSort leB) := by
    apply List.sublist_mergeSort leB_trans leB_total _ List.filter_sublist
    apply List.Pairwise.imp_of_mem (R := fun _ _ => True)
    · intro a b ha hb _
      have ha := of_decide_eq_true (List.mem_filter.mp ha).2
      have hb := of_decide_eq_true (List.mem_filter.mp hb).2
      have : SameKey a b := ⟨ha.1.symm.trans hb.1, ha.2.1.symm.trans hb.2.1, ha.2.2.symm.trans hb.2.2⟩
      simpa [leB] using ((sameKey_iff a b).mp this).2
    · exact List.pairwise_of_forall (fun _ _ => trivial)
  have hsub2 : List.Sublist (withKey k l) (withKey k (l.mergeSort leB)) := by
    have := hsub.filter (fun e => decide (SameKey k e))
    unfold withKey at this ⊢
    rwa [List.filter_filter, show (fun a => decide (SameKey k a) && decide (SameKey k a)) = fun a => decide (SameKey k a) from by simp] at this
  have hlen : (withKey k (l.mergeSort leB)).length = (withKey k l).length := ((List.mergeSort_perm l leB).filter _).length_eq
  exact (hsub2.eq_of_length hlen.symm).symm

theorem withKey_append (k : Element) (a b : List Element) : withKey k (a ++ b) = withKey k a ++ withKey k b := List.filter_append ..

/-- Elements with the same type, id and version are never rearranged by the ordering thread. -/
theorem run_withKey {S : StdSort} {B F : Nat} (calls : List WriteCall) (hr : NoSentinel (submitted calls)) (s : Orderer)
    (h : Orderer.run S B F {} calls = .ok s) (k : Element) : withKey k (s.blocks.flatten ++ s.buffer) = withKey k (submitted calls) := by
  induction calls using List.reverseRecOn generalizing s with
  | nil => simp [Orderer.run] at h; subst h; rfl
  | append_singleton calls c ih =>
    rw [run_append, Out.bind_eq_ok] at h
    obtain ⟨t, ht, h⟩ := h
    simp only [run_cons, Out.bind_eq_ok] at h
    obtain ⟨s1, h1, h2⟩ := h
    simp [Orderer.run] at h2
    subst h2
    obtain ⟨-, rfl⟩ := exec_ok h1
    rw [submitted_append] at hr ⊢
    have hi := ih (fun e he => hr e (by simp [he])) t ht
    have hp := C25_permutation_open S B F calls t ht
    have hrb : NoSentinel (t.buffer ++ submitted [c]) := by
      intro e he
      rcases List.mem_append.mp he with he | he
      · exact hr e (List.mem_append_left _ (hp.mem_iff.mp (List.mem_append_right _ he)))
      · exact hr e (List.mem_append_right _ he)
    have hgoal : withKey k (t.blocks.flatten ++ (t.buffer ++ submitted [c])) = withKey k (submitted calls ++ submitted [c]) := by
      rw [← List.append_assoc, withKey_append, hi, withKey_append]
    unfold Orderer.checkFull
    split
    · rw [← hgoal]
      simp only [Orderer.flushTop, Orderer.emit]
      have a1 := split_append F (S.sort (t.buffer ++ submitted [c]))
      simp only [List.flatten_append, List.flatten_cons, List.flatten_nil, List.append_nil, List.append_assoc]
      rw [a1, withKey_append, withKey_append, sort_withKey S hrb]
    · exact hgoal

/-- C100. Elements that agree in type, id and version are in the file in the order in which they were handed over: whatever was handed over, in whatever
calls, sorted or not, by every schedule. -/
theorem C100_stable (S : StdSort) (B F : Nat) (calls : List WriteCall) (hr : NoSentinel (submitted calls)) (blocks : List (List Element))
    (h : ParallelBlocks S B F calls blocks) (k : Element) : withKey k blocks.flatten = withKey k (submitted calls) := by
  obtain ⟨s, s', h1, h2, rfl⟩ := h
  have hi := run_withKey calls hr s h1 k
  have hp := C25_permutation_open S B F calls s h1
  obtain ⟨-, new', e2, p2⟩ := flushLoop_perm h2
  simp only at e2 p2
  rw [e2, List.flatten_append, p2, withKey_append, sort_withKey S (fun e he => hr e (hp.mem_iff.mp (List.mem_append_right _ he))), ← hi, withKey_append]

/-- There is only one way to sort stably. -/
theorem C100_one_stable_sort (l m n : List Element) (hm : StablySorted l m) (hn : StablySorted l n) : m = n := by
  have key : ∀ m n : List Element, Sorted m → Sorted n → (∀ k, withKey k m = withKey k n) → m = n := by
    intro m
    induction m with
    | nil =>
      intro n _ _ h
      cases n with
      | nil => rfl
      | cons y n =>
        have := h y
        simp [withKey, SameKey] at this
    | cons x m ih =>
      intro n hm hn h
      cases n with
      | nil =>
        have := h x
        simp [withKey, SameKey] at this
      | cons y n =>
        have hxx : SameKey x x := ⟨rfl, rfl, rfl⟩
        have hyy : SameKey y y := ⟨rfl, rfl, rfl⟩
        have hx : x ∈ y :: n := by
          have : x ∈ withKey x (y :: n) := by rw [← h x]; simp [withKey, hxx]
          exact List.mem_of_mem_filter this
        have hy : y ∈ x :: m := by
          have : y ∈ withKey y (x :: m) := by rw [h y]; simp [withKey, hyy]
          exact List.mem_of_mem_filter this
        have irr : ∀ e, ¬ Before e e := fun e => ((sameKey_iff e e).mp ⟨rfl, rfl, rfl⟩).1
        have h1 : ¬ Before y x := by
          rcases List.mem_cons.mp hy with rfl | hy
          · exact irr _
          · exact (List.pairwise_cons.mp hm).1 y hy
        have h2 : ¬ Before x y := by
          rcases List.mem_cons.mp hx with rfl | hx
          · exact irr _
          · exact (List.pairwise_cons.mp hn).1 x hx
        have hk := (sameKey_iff x y).mpr ⟨h2, h1⟩
        have hxy : x = y := by
          have := h x
          simp [withKey, hxx, hk] at this
          exact this.1
        subst hxy
        rw [ih n (List.pairwise_cons.mp hm).2 (List.pairwise_cons.mp hn).2]
        intro k
        have := h k
        unfold withKey at this ⊢
        rw [List.filter_cons, List.filter_cons] at this
        split at this
        · exact (List.cons.inj this).2
        · exact this
  exact key m n hm.sorted hn.sorted fun k => (hm.stable k).trans (hn.stable k).symm

/-- C100. If nothing arrives too late, the file has the elements handed over, sorted stably. -/
theorem C100_stably_sorted (S : StdSort) (B F : Nat) (hF : 0 < F) (calls : List WriteCall) (hr : NoSentinel (submitted calls)) (hl : NoLate S B F calls) :
    ∃ blocks, ParallelBlocks S B F calls blocks ∧ StablySorted (submitted calls) blocks.flatten := by
  obtain ⟨blocks, h1, h2⟩ := (C26_sorted_iff_no_late S B F hF calls hr).mpr hl
  exact ⟨blocks, h1, C25_permutation S B F calls blocks h1, h2, C100_stable S B F calls hr blocks h1⟩

theorem parallelBlocks_det {S : StdSort} {B F : Nat} {calls : List WriteCall} {a b : List (List Element)} (ha : ParallelBlocks S B F calls a)
    (hb : ParallelBlocks S B F calls b) : a = b := by
  obtain ⟨t, t', h1, h2, rfl⟩ := ha
  obtain ⟨s, s', h1', h2', rfl⟩ := hb
  rw [h1'] at h1
  simp at h1
  subst h1
  rw [flushLoop_det h2 h2']

theorem perm_of_withKey {l m : List Element} (h : ∀ k, withKey k l = withKey k m) : l.Perm m := by
  rw [List.perm_iff_count]
  intro e
  have hc : ∀ l, List.count e (withKey e l) = List.count e l := fun l => List.count_filter (by simp [SameKey])
  rw [← hc l, ← hc m, h e]

/-- C100. Two parallel writers, with buffers and blocks of any sizes and any schedules, that are given elements of the same type, id and version in the same
order (for instance, the same elements in calls of different lengths; or elements without repetitions, in different orders), hold the same elements in
the same order in their files if nothing arrives too late. -/
theorem C100_same_elements (g g' : ParSystem.Config) (hF : 0 < g.blockSize) (hF' : 0 < g'.blockSize) (ops ops' : List Op) (s s' : ParSystem)
    (hs : Occurs g (.header :: ops) s) (hs' : Occurs g' (.header :: ops') s') (hc : Closed s) (hc' : Closed s')
    (hr : NoSentinel (submitted (callsOf ops)))
    (hk : ∀ k, withKey k (submitted (callsOf ops')) = withKey k (submitted (callsOf ops)))
    (hl : NoLate g.S g.bufferSize g.blockSize (callsOf ops)) (hl' : NoLate g'.S g'.bufferSize g'.blockSize (callsOf ops')) :
    ∃ blocks blocks' : List (List Element), s.file = some (blockBytes g.z g.c (.header g.info :: blocks.map .data)) ∧
      s'.file = some (blockBytes g'.z g'.c (.header g'.info :: blocks'.map .data)) ∧
      StablySorted (submitted (callsOf ops)) blocks.flatten ∧ blocks'.flatten = blocks.flatten := by
  have hp := perm_of_withKey hk
  obtain ⟨a, ha, e1⟩ := C68_close_complete g hF ops s hs hc
  obtain ⟨a', ha', e2⟩ := C68_close_complete g' hF' ops' s' hs' hc'
  obtain ⟨b, hb, f1⟩ := C100_stably_sorted g.S g.bufferSize g.blockSize hF _ hr hl
  obtain ⟨b', hb', f2⟩ := C100_stably_sorted g'.S g'.bufferSize g'.blockSize hF' _ (noSentinel_perm hp.symm hr) hl'
  rw [parallelBlocks_det ha hb] at e1
  rw [parallelBlocks_det ha' hb'] at e2
  refine ⟨b, b', e1, e2, f1, C100_one_stable_sort (submitted (callsOf ops)) _ _ ⟨f2.perm.trans hp, f2.sorted, fun k => (f2.stable k).trans (hk k)⟩ f1⟩

/-- C100. A reader gets the elements of such a file sorted stably. -/
theorem C100_reads (g : ParSystem.Config) (hz : g.z.Lossless) (hF : 0 < g.blockSize) (ops : List Op) (s : ParSystem) (hs : Occurs g (.header :: ops) s)
    (hc : Closed s) (hr : NoSentinel (submitted (callsOf ops))) (hl : NoLate g.S g.bufferSize g.blockSize (callsOf ops)) (sorted : List Element)
    (hsort : StablySorted (submitted (callsOf ops)) sorted) (hx : ∀ e ∈ sorted, Exact e) (hn : ¬ EmptyInfo g.info) (hh : HeaderFits g.z g.c g.info)
    (hfit : ∀ run, run <:+: sorted → run.length ≤ g.blockSize → Fits g.z g.c run) :
    ∃ file, s.file = some file ∧ ∀ es r, ReadsElements g.z file es r ↔ es = sorted ∧ r = .done := by
  obtain ⟨a, ha, e1⟩ := C68_close_complete g hF ops s hs hc
  obtain ⟨b, hb, f1⟩ := C100_stably_sorted g.S g.bufferSize g.blockSize hF _ hr hl
  rw [parallelBlocks_det ha hb] at e1
  have hflat := C100_one_stable_sort _ _ _ f1 hsort
  refine ⟨_, e1, fun es r => ?_⟩
  have hshape := C35_block_shape g.S g.bufferSize g.blockSize hF _ b hb
  have hmem : ∀ x ∈ b, ∀ e ∈ x, e ∈ sorted := fun x hx e he => by
    rw [← hflat]; exact List.mem_flatten.mpr ⟨x, hx, he⟩
  rw [reads_written_blocks hz hn hh (fun x hx => homogeneous_of_oneType (hshape x hx).2.2 fun e he => noSentinel_perm hsort.perm.symm hr e (hmem x hx e he))
    (fun x hx => hfit x (hflat ▸ infix_of_mem_flatten hx) (hshape x hx).2.1), hflat, map_quant_exact hx]

/-- With room for all elements nothing is late. -/
theorem noLate_small (S : StdSort) (B F : Nat) (calls : List WriteCall) (h : (submitted calls).length ≤ B) : NoLate S B F calls := by
  rintro pre call post rfl s hs e he x hx
  rw [submitted_append, List.length_append] at h
  rw [run_small S B F pre {} rfl (by simp; omega)] at hs
  cases hs
  simp at hx

/-! ### Concrete programs -/

/-- A second node with the id and version of `nodeN 1`. -/
def exSecond : Element := .node { exNode with id := 1, user := "second" }

/-- Nodes out of order, two of them with the same id and version. -/
def exUnsortedOps : List Op := [.write (.elements [nodeN 3, nodeN 1]), .write (.element exSecond), .write (.element (nodeN 2))]

theorem exUnsorted_sorted : StablySorted (submitted (callsOf exUnsortedOps)) [nodeN 1, exSecond, nodeN 2, nodeN 3] := by
  have hk : ∀ k, withKey k [nodeN 1, exSecond, nodeN 2, nodeN 3] = withKey k (submitted (callsOf exUnsortedOps)) := by
    intro k
    show withKey k [nodeN 1, exSecond, nodeN 2, nodeN 3] = withKey k [nodeN 3, nodeN 1, exSecond, nodeN 2]
    simp only [withKey, List.filter_cons, List.filter_nil, decide_eq_true_eq]
    have hd : ∀ a b : Element, eid a ≠ eid b → ¬ (SameKey k a ∧ SameKey k b) := fun a b hn ⟨h1, h2⟩ => hn (h1.2.1.symm.trans h2.2.1)
    have h1 := hd (nodeN 1) (nodeN 3) (by decide)
    have h2 := hd exSecond (nodeN 3) (by decide)
    have h3 := hd (nodeN 2) (nodeN 3) (by decide)
    by_cases h : SameKey k (nodeN 3)
    · have n1 : ¬ SameKey k (nodeN 1) := fun h' => h1 ⟨h', h⟩
      have n2 : ¬ SameKey k exSecond := fun h' => h2 ⟨h', h⟩
      have n3 : ¬ SameKey k (nodeN 2) := fun h' => h3 ⟨h', h⟩
      simp [h, n1, n2, n3]
    · simp [h]
  exact ⟨perm_of_withKey hk, by unfold Sorted; decide, hk⟩

/-- The hypotheses of `C100_stably_sorted`, `C100_same_elements` and `C100_reads` are met, with the expected elements in the file. -/
example (z : Zlib) (info : FileInfo) (c : CompressionType) :
    NoSentinel (submitted (callsOf exUnsortedOps)) ∧ NoLate mergeSortStd 8000 8000 (callsOf exUnsortedOps) ∧
    ∃ s, Occurs (exFullSize z info c) (.header :: exUnsortedOps) s ∧ Closed s ∧
      ∃ blocks : List (List Element), s.file = some (blockBytes z c (.header info :: blocks.map .data)) ∧ blocks.flatten = [nodeN 1, exSecond, nodeN 2, nodeN 3] := by
  have hr : NoSentinel (submitted (callsOf exUnsortedOps)) := by
    intro e he
    simp [exUnsortedOps, submitted, callsOf] at he
    rcases he with rfl | rfl | rfl | rfl <;> simp [nodeN, exSecond]
  have hlen : (submitted (callsOf exUnsortedOps)).length ≤ 8000 := by
    rw [exUnsorted_sorted.perm.symm.length_eq]; simp
  have hl := noLate_small mergeSortStd 8000 8000 _ hlen
  obtain ⟨s, hs, hc⟩ := exFullSize_runs z info c exUnsortedOps hlen
  obtain ⟨b, -, h1, -, h2, -⟩ := C100_same_elements (exFullSize z info c) (exFullSize z info c) (by simp [exFullSize]) (by simp [exFullSize]) _ _ s s hs hs hc hc hr
    (fun _ => rfl) hl hl
  exact ⟨hr, hl, s, hs, hc, b, h1, C100_one_stable_sort _ _ _ h2 exUnsorted_sorted⟩

end OsmIo
