import Verif.Lemmas.Orderer
import Verif.Lemmas.Pipeline
import Verif.Props.Accumulator
/-! # C24, C25, C26, C27, C34, C35, C36: the parallel writer -/
set_option linter.unusedSimpArgs false
set_option linter.flexible false
namespace OsmIo
open Spec

/-! ## C24: the order of blocks in the file -/

/-- C24. Whatever the encoding threads do, and whenever one looks: the file is the header followed by the first blocks, in order and
complete, and its length only grows by whole blocks; once `close` has drained the pools, it is the header followed by all blocks. -/
theorem C24_blocks_in_order (z : Zlib) (info : FileInfo) (c : CompressionType) (threads : Nat) (blocks : List (List Element)) (p : Pipeline)
    (hs : Pipeline.Steps z c threads (.init z info c blocks) p) :
    (∃ k ≤ blocks.length, p.writer.file = blockBytes z c (.header info :: (blocks.take k).map .data)) ∧
    (p.Drained → p.writer.file = blockBytes z c (.header info :: blocks.map .data) ∧ p.held = []) := by
  have h := Pipeline.steps_inv (Pipeline.init_inv z info c blocks) hs
  have hw : ((Writer.fromFileInfo info c).writeHeader z).file = blockBytes z c [.header info] := by
    simp [Writer.writeHeader, Writer.writeFileBlock, Writer.writeBlob, Writer.fromFileInfo, blockBytes]
  have hf : ∀ k, p.next - 1 = k → p.writer.file = blockBytes z c (.header info :: (blocks.take k).map .data) := by
    rintro k rfl
    rw [h.file]
    simp only [hw]
    simp [blockBytes]
  refine ⟨⟨p.next - 1, h.le, hf _ rfl⟩, fun hd => ?_⟩
  obtain ⟨h1, h2⟩ := Pipeline.drained_next h hd
  have := hf _ h1
  rw [List.take_length] at this
  exact ⟨this, h2⟩

/-- C24. The pools never get stuck: from every reachable state, work left means that some thread can make a step, every step
reduces the work, and the drained state can be reached. -/
theorem C24_pipeline_terminates (z : Zlib) (info : FileInfo) (c : CompressionType) (threads : Nat) (ht : 0 < threads)
    (blocks : List (List Element)) (p : Pipeline) (_hs : Pipeline.Steps z c threads (.init z info c blocks) p) :
    (¬ p.Drained → ∃ q, Pipeline.Step z c threads p q) ∧
    (∀ q, Pipeline.Step z c threads p q → Pipeline.workLeft q < Pipeline.workLeft p) ∧
    ∃ q, Pipeline.Steps z c threads p q ∧ q.Drained :=
  ⟨Pipeline.progress ht p, fun _ hq => by have := Pipeline.step_work hq; omega, Pipeline.reaches_drained ht p⟩

/-- Two blocks finished in the opposite order, with two encoding threads. -/
example (z : Zlib) (c : CompressionType) (info : FileInfo) (a b : List Element) :
    ∃ p, Pipeline.Steps z c 2 (.init z info c [a, b]) p ∧ p.held ≠ [] ∧ ¬ p.Drained := by
  refine ⟨_, .tail (.tail (.tail (.tail (.tail (.tail .refl (.submit _ _ _ rfl)) (.submit _ _ _ rfl)) (.take _ [] _ _ rfl (by simp [Pipeline.init])))
    (.take _ [] _ _ rfl (by simp [Pipeline.init]))) (.encode _ [(1, a)] [] 2 b rfl)) (.write _ 2 _ [] rfl), ?_, ?_⟩
  · simp [mapInsert, writeReady, mapRemove, Pipeline.init]
  · simp [Pipeline.Drained, Pipeline.init]

/-! ## C25: nothing lost, nothing duplicated -/

/-- C25. If no call panics and the final flush ends, the blocks hold exactly the submitted elements, as a multiset. -/
theorem C25_permutation (S : StdSort) (B F : Nat) (calls : List WriteCall) (blocks : List (List Element))
    (h : ParallelBlocks S B F calls blocks) : blocks.flatten.Perm (submitted calls) := by
  obtain ⟨s, s', h1, h2, rfl⟩ := h
  obtain ⟨new, e1, p1⟩ := run_perm h1
  obtain ⟨-, new', e2, p2⟩ := flushLoop_perm h2
  simp only at e2 p2
  rw [e2, e1]
  simp only [List.nil_append, List.flatten_append, p2]
  refine ((S.perm _).append_left _).trans ?_
  simpa using p1

/-- C25. At every moment before `close`, blocks and buffer together hold exactly the elements submitted so far. -/
theorem C25_permutation_open (S : StdSort) (B F : Nat) (calls : List WriteCall) (s : Orderer) (h : Orderer.run S B F {} calls = .ok s) :
    (s.blocks.flatten ++ s.buffer).Perm (submitted calls) := by
  obtain ⟨new, e1, p1⟩ := run_perm h
  rw [e1]
  simpa using p1

/-! ## C35: shape of blocks -/

theorem run_blocks {S : StdSort} {B F : Nat} (hF : 0 < F) {calls : List WriteCall} {s s' : Orderer} (h : s.run S B F calls = .ok s') :
    ∃ new, s'.blocks = s.blocks ++ new ∧ ∀ b ∈ new, b ≠ [] ∧ b.length ≤ F ∧ OneType b := by
  induction calls generalizing s with
  | nil => simp [Orderer.run] at h; subst h; exact ⟨[], by simp, by simp⟩
  | cons c cs ih =>
    rw [run_cons, Out.bind_eq_ok] at h
    obtain ⟨s1, h1, h2⟩ := h
    obtain ⟨-, rfl⟩ := exec_ok h1
    obtain ⟨new, e, hb⟩ := ih h2
    rw [e]
    unfold Orderer.checkFull
    split
    · rename_i hl
      obtain ⟨b, e1, e2, e3, -⟩ := flushTop_perm S F { s with buffer := s.buffer ++ submitted [c] }
      refine ⟨b :: new, by rw [e1]; simp, ?_⟩
      intro x hx
      simp at hx
      rcases hx with rfl | hx
      · subst e3
        refine ⟨split_ne_nil hF ?_, split_length _ _, split_oneType _ _⟩
        intro hn
        have := (S.perm (s.buffer ++ submitted [c])).length_eq
        simp only at hn
        rw [hn] at this
        simp only at hl
        rw [← this] at hl
        simp at hl
      · exact hb x hx
    · exact ⟨new, by simp, hb⟩

theorem flushLoop_blocks {F : Nat} (hF : 0 < F) {s s' : Orderer} (h : Orderer.FlushLoop F s s') :
    ∃ new, s'.blocks = s.blocks ++ new ∧ ∀ b ∈ new, b ≠ [] ∧ b.length ≤ F ∧ OneType b := by
  induction h with
  | done s h => exact ⟨[], by simp, by simp⟩
  | step s s' hn _ ih =>
    obtain ⟨new, h2, h3⟩ := ih
    refine ⟨(splitFileBlock F s.buffer).1 :: new, by rw [h2]; simp [Orderer.emit], ?_⟩
    intro b hb
    simp at hb
    rcases hb with rfl | hb
    · exact ⟨split_ne_nil hF hn, split_length _ _, split_oneType _ _⟩
    · exact h3 b hb

/-- C35. With a positive block size every block holds at least one and at most `blockSize` elements, all of the same type. -/
theorem C35_block_shape (S : StdSort) (B F : Nat) (hF : 0 < F) (calls : List WriteCall) (blocks : List (List Element))
    (h : ParallelBlocks S B F calls blocks) :
    ∀ b ∈ blocks, 1 ≤ b.length ∧ b.length ≤ F ∧ ∀ e ∈ b, ∀ f ∈ b, e.sameType f = true := by
  obtain ⟨s, s', h1, h2, rfl⟩ := h
  obtain ⟨new, e1, p1⟩ := run_blocks hF h1
  obtain ⟨new', e2, p2⟩ := flushLoop_blocks hF h2
  simp only at e2 p2
  rw [e2, e1]
  intro b hb
  simp at hb
  have : b ≠ [] ∧ b.length ≤ F ∧ OneType b := hb.elim (p1 b) (p2 b)
  exact ⟨List.length_pos_of_ne_nil this.1, this.2.1, this.2.2⟩

/-- C35. With a positive block size the final flush ends, with one result; with block size 0 it never ends unless the buffer is empty. -/
theorem C35_flush_terminates (S : StdSort) (F : Nat) (s : Orderer) :
    (0 < F → ∃ s', s.FlushAll S F s' ∧ ∀ s'', s.FlushAll S F s'' → s'' = s') ∧
    (s.buffer ≠ [] → ¬ ∃ s', s.FlushAll S 0 s') := by
  constructor
  · intro hF
    obtain ⟨s', hs'⟩ := flushLoop_exists hF { s with buffer := S.sort s.buffer }
    exact ⟨s', hs', fun s'' h => flushLoop_det h hs'⟩
  · rintro hb ⟨s', hs'⟩
    have key : ∀ a b : Orderer, Orderer.FlushLoop 0 a b → a.buffer = [] := by
      intro a b h
      induction h with
      | done _ h => exact h
      | step s s' _ _ ih => simpa [Orderer.emit, splitFileBlock, splitGo] using ih
    have := key _ _ hs'
    simp only at this
    have hl := (S.perm s.buffer).length_eq
    rw [this] at hl
    exact hb (List.length_eq_zero_iff.mp hl.symm)

/-! ## C36: the buffer stays within its size -/

theorem run_buffer {S : StdSort} {B F : Nat} (hF : 0 < F) (es : List Element) {s s' : Orderer} (hs : s.buffer.length ≤ B)
    (h : s.run S B F (es.map .element) = .ok s') : s'.buffer.length ≤ B := by
  induction es generalizing s with
  | nil => simp [Orderer.run] at h; subst h; exact hs
  | cons e es ih =>
    rw [List.map_cons, run_cons, Out.bind_eq_ok] at h
    obtain ⟨s1, h1, h2⟩ := h
    obtain ⟨-, rfl⟩ := exec_ok h1
    refine ih ?_ h2
    unfold Orderer.checkFull
    split
    · rename_i hl
      obtain ⟨b, e1, e2, e3, -⟩ := flushTop_perm S F { s with buffer := s.buffer ++ submitted [WriteCall.element e] }
      have hl' := congrArg List.length e2
      simp only [(S.perm _).length_eq, List.length_append] at hl'
      have hne : 0 < b.length := by
        rw [e3]
        apply List.length_pos_of_ne_nil
        apply split_ne_nil hF
        intro hn
        have := (S.perm (s.buffer ++ submitted [WriteCall.element e])).length_eq
        simp only at hn
        rw [hn] at this
        simp [submitted] at this
      simp [submitted] at hl' ⊢
      omega
    · rename_i hl
      simp only at hl ⊢
      omega

/-- C36. As long as only `write_element` is used and the block size is positive, the ordering buffer never holds more than
`element_ordering_buffer_size` elements after a call. -/
theorem C36_buffer_bounded (S : StdSort) (B F : Nat) (hF : 0 < F) (es : List Element) (s : Orderer)
    (h : Orderer.run S B F {} (es.map .element) = .ok s) : s.buffer.length ≤ B :=
  run_buffer hF es (by simp) h

/-! ## C26: sorted output -/

/-- What holds of the ordering thread as long as nothing arrives late. -/
structure OrdInv (s : Orderer) : Prop where
  real : NoSentinel (s.blocks.flatten ++ s.buffer)
  sorted : Sorted s.blocks.flatten
  below : ∀ x ∈ s.blocks.flatten, ∀ y ∈ s.buffer, ¬ Before y x
  min : ∀ m, s.min = some m → m ∈ s.blocks.flatten

theorem emit_inv (F : Nat) {s : Orderer} (h : OrdInv s) (hs : Sorted s.buffer) : OrdInv (s.emit F) ∧ Sorted (s.emit F).buffer := by
  have hsp := split_append F s.buffer
  have hblocks : (s.emit F).blocks.flatten = s.blocks.flatten ++ (splitFileBlock F s.buffer).1 := by simp [Orderer.emit]
  have hbuf : (s.emit F).buffer = (splitFileBlock F s.buffer).2 := rfl
  rw [← hsp] at hs
  unfold Sorted at hs
  rw [List.pairwise_append] at hs
  refine ⟨⟨?_, ?_, ?_, ?_⟩, ?_⟩
  · rw [emit_all]; exact h.real
  · rw [hblocks]
    unfold Sorted
    rw [List.pairwise_append]
    refine ⟨h.sorted, hs.1, fun x hx y hy => h.below x hx y ?_⟩
    rw [← hsp]; simp [hy]
  · rw [hblocks, hbuf]
    intro x hx y hy
    simp at hx
    rcases hx with hx | hx
    · refine h.below x (by simpa using hx) y ?_
      rw [← hsp]; simp [hy]
    · exact hs.2.2 x hx y hy
  · intro m hm
    rw [hblocks]
    simp only [Orderer.emit] at hm
    cases hh : (splitFileBlock F s.buffer).1.head? with
    | none => rw [hh] at hm; simp at hm; rw [List.mem_append]; exact .inl (h.min m hm)
    | some a =>
      rw [hh] at hm
      simp at hm
      subst hm
      have := List.mem_of_mem_head? (by rw [hh]; rfl : a ∈ (splitFileBlock F s.buffer).1.head?)
      simp [this]
  · rw [hbuf]; exact hs.2.1

theorem sorted_inv (S : StdSort) {s : Orderer} (h : OrdInv s) : OrdInv { s with buffer := S.sort s.buffer } ∧ Sorted (S.sort s.buffer) := by
  have hp := S.perm s.buffer
  refine ⟨⟨?_, h.sorted, ?_, h.min⟩, sort_sorted S fun e he => h.real e (by simp [he])⟩
  · exact noSentinel_perm (hp.symm.append_left _) h.real
  · intro x hx y hy
    exact h.below x hx y (hp.mem_iff.mp hy)

theorem flushLoop_inv {F : Nat} {s s' : Orderer} (h : Orderer.FlushLoop F s s') (hi : OrdInv s) (hs : Sorted s.buffer) : OrdInv s' := by
  induction h with
  | done s _ => exact hi
  | step s s' _ _ ih =>
    obtain ⟨h1, h2⟩ := emit_inv F hi hs
    exact ih h1 h2

theorem noLate_run {S : StdSort} {B F : Nat} (calls : List WriteCall) (hr : NoSentinel (submitted calls)) (h : NoLate S B F calls) :
    ∃ s, Orderer.run S B F {} calls = .ok s ∧ OrdInv s := by
  induction calls using List.reverseRecOn with
  | nil => exact ⟨{}, rfl, ⟨by simp [NoSentinel], by simp [Sorted], by simp, by simp⟩⟩
  | append_singleton calls c ih =>
    obtain ⟨s, hs, hi⟩ := ih (fun e he => hr e (by rw [submitted_append]; simp [he])) (by
      intro pre call post he t ht e hem x hx
      exact h pre call (post ++ [c]) (by rw [he]; simp) t ht e hem x hx)
    have hl := h calls c [] rfl s hs
    have hreal : ∀ e ∈ submitted [c], e ≠ .sentinel := fun e he => hr e (by rw [submitted_append]; simp [he])
    have ha : ∀ e ∈ submitted [c], s.assertOrder e = true := by
      intro e he
      unfold Orderer.assertOrder
      cases hm : s.min with
      | none => simp
      | some m =>
        have hme := hi.min m hm
        have hmr : m ≠ .sentinel := hi.real m (by rw [List.mem_append]; exact .inl hme)
        have := (C23_order_is_type_id_version e m (hreal e he) hmr).1
        have hne : e.cmp m ≠ .lt := fun hc => hl e he m hme (this.mp hc)
        simp [hne]
    refine ⟨_, by rw [run_append, hs]; simp only [Out.ok_bind]; rw [run_cons, (exec_iff S B F s c).1 ha]; rfl, ?_⟩
    have hi' : OrdInv { s with buffer := s.buffer ++ submitted [c] } := by
      refine ⟨?_, hi.sorted, ?_, hi.min⟩
      · intro e he
        simp only [List.mem_append] at he
        rcases he with he | he | he
        · exact hi.real e (by simp only [List.mem_append]; exact .inl he)
        · exact hi.real e (by simp only [List.mem_append]; exact .inr he)
        · exact hreal e he
      · intro x hx y hy
        simp only [List.mem_append] at hy
        rcases hy with hy | hy
        · exact hi.below x hx y hy
        · exact hl y hy x hx
    unfold Orderer.checkFull
    split
    · obtain ⟨h1, h2⟩ := sorted_inv S hi'
      exact (emit_inv F h1 h2).1
    · exact hi'

/-- C26. For elements without sentinels and a positive block size: the parallel writer accepts all calls and its output is sorted by type, id and
version if and only if no element arrives after an element that belongs behind it has been put into a block. -/
theorem C26_sorted_iff_no_late (S : StdSort) (B F : Nat) (hF : 0 < F) (calls : List WriteCall) (hr : NoSentinel (submitted calls)) :
    (∃ blocks, ParallelBlocks S B F calls blocks ∧ Sorted blocks.flatten) ↔ NoLate S B F calls := by
  constructor
  · rintro ⟨blocks, ⟨s, s', h1, h2, rfl⟩, hs⟩ pre call post rfl t ht e he x hx
    rw [run_append, ht] at h1
    simp only [Out.ok_bind] at h1
    obtain ⟨new, e1, p1⟩ := run_perm h1
    obtain ⟨-, new', e2, p2⟩ := flushLoop_perm h2
    simp only at e2 p2
    rw [e2, e1] at hs
    have hmem : e ∈ new.flatten ++ s.buffer := p1.mem_iff.mpr (by
      rw [submitted_cons]; simp only [List.mem_append]; exact .inr (.inl he))
    have hmem' : e ∈ (new ++ new').flatten := by
      rw [List.flatten_append, p2]
      simp only [List.mem_append] at hmem ⊢
      exact hmem.imp_right fun h => (S.perm _).mem_iff.mpr h
    rw [List.append_assoc, List.flatten_append] at hs
    exact (List.pairwise_append.mp hs).2.2 x hx e hmem'
  · intro h
    obtain ⟨s, hs, hi⟩ := noLate_run calls hr h
    obtain ⟨h1, h2⟩ := sorted_inv S hi
    obtain ⟨s', hs'⟩ := flushLoop_exists hF { s with buffer := S.sort s.buffer }
    exact ⟨s'.blocks, ⟨s, s', hs, hs', rfl⟩, (flushLoop_inv hs' h1 h2).sorted⟩

/-- C26. Sorted input arrives never late, however it is cut into calls. -/
theorem C26_sorted_input_not_late (S : StdSort) (B F : Nat) (calls : List WriteCall) (hs : Sorted (submitted calls)) :
    NoLate S B F calls := by
  rintro pre call post rfl t ht e he x hx
  have hp := C25_permutation_open S B F pre t ht
  have hx' : x ∈ submitted pre := hp.mem_iff.mp (by simp only [List.mem_append]; exact .inl hx)
  rw [submitted_append, submitted_cons] at hs
  exact (List.pairwise_append.mp hs).2.2 x hx' e (by simp only [List.mem_append]; exact .inl he)

/-- Every element in a block has many elements, submitted so far, that do not belong before it. -/
theorem flushed_dominated {S : StdSort} {B F : Nat} (hF : 0 < F) (es : List Element) (hr : NoSentinel es) (s : Orderer)
    (h : Orderer.run S B F {} (es.map .element) = .ok s) :
    ∀ x ∈ s.blocks.flatten, (B + 1 - F) + 1 ≤ (es.filter fun y => decide (¬ Before y x)).length := by
  induction es using List.reverseRecOn generalizing s with
  | nil => simp [Orderer.run] at h; subst h; simp
  | append_singleton es e ih =>
    rw [List.map_append, run_append, Out.bind_eq_ok] at h
    obtain ⟨t, ht, h⟩ := h
    simp only [List.map_cons, List.map_nil, run_cons, Out.bind_eq_ok] at h
    obtain ⟨s1, h1, h2⟩ := h
    simp [Orderer.run] at h2
    subst h2
    obtain ⟨-, rfl⟩ := exec_ok h1
    have hbuf := run_buffer hF es (by simp) ht
    have hold : ∀ x ∈ t.blocks.flatten, (B + 1 - F) + 1 ≤ ((es ++ [e]).filter fun y => decide (¬ Before y x)).length := by
      intro x hx
      have := ih (fun e he => hr e (by simp [he])) t ht x hx
      rw [List.filter_append, List.length_append]
      omega
    unfold Orderer.checkFull
    split
    · rename_i hl
      obtain ⟨b, e1, e2, e3, -⟩ := flushTop_perm S F { t with buffer := t.buffer ++ submitted [WriteCall.element e] }
      rw [e1]
      intro x hx
      simp only [List.flatten_append, List.flatten_cons, List.flatten_nil, List.append_nil, List.mem_append] at hx
      rcases hx with hx | hx
      · exact hold x hx
      · -- the rest of the buffer, and x itself
        have hperm := C25_permutation_open S B F _ _ (show Orderer.run S B F {} ((es ++ [e]).map WriteCall.element) =
            .ok (Orderer.flushTop S F { t with buffer := t.buffer ++ submitted [WriteCall.element e] }) by
          rw [List.map_append, run_append, ht]
          simp only [Out.ok_bind, List.map_cons, List.map_nil, run_cons, h1]
          simp only [Orderer.checkFull, if_pos hl]; rfl)
        have hsub : submitted ((es ++ [e]).map WriteCall.element) = es ++ [e] := by
          simp [submitted, List.flatMap_map]
        rw [hsub] at hperm
        set rest := (Orderer.flushTop S F { t with buffer := t.buffer ++ submitted [WriteCall.element e] }).buffer with hrest
        simp only at e2
        have hrealbuf : NoSentinel (t.buffer ++ submitted [WriteCall.element e]) := by
          have hp := C25_permutation_open S B F _ _ ht
          rw [show submitted (es.map WriteCall.element) = es by simp [submitted, List.flatMap_map]] at hp
          intro y hy
          simp [submitted] at hy
          rcases hy with hy | rfl
          · exact hr y (by simp [hp.mem_iff.mp (by simp [hy] : y ∈ t.blocks.flatten ++ t.buffer)])
          · exact hr y (by simp)
        have hsorted := sort_sorted S hrealbuf
        rw [← e2] at hsorted
        have hge : ∀ y ∈ rest, ¬ Before y x := (List.pairwise_append.mp hsorted).2.2 x hx
        have hlen : (b ++ rest).length = B + 1 := by
          rw [e2, (S.perm _).length_eq]
          simp [submitted] at hl ⊢
          omega
        have hb : b.length ≤ F := by rw [e3]; exact split_length _ _
        rw [← (hperm.filter fun y => decide (¬ Before y x)).length_eq, e1]
        simp only [List.flatten_append, List.flatten_cons, List.flatten_nil, List.append_nil, List.filter_append, List.length_append]
        have hrl : (rest.filter fun y => decide (¬ Before y x)).length = rest.length := by
          rw [List.filter_eq_self.mpr]
          intro y hy; simpa using hge y hy
        have hbl : 1 ≤ (b.filter fun y => decide (¬ Before y x)).length := by
          apply List.length_pos_of_mem (a := x)
          rw [List.mem_filter]
          refine ⟨hx, ?_⟩
          have := (C23_order_total x x x).1
          simp; tauto
        rw [hrl]
        simp at hlen
        omega
    · exact hold

/-- C26. If each element is preceded by at most `bufferSize + 1 - blockSize` elements that belong behind it, then nothing arrives
late (for elements written one by one). -/
theorem C26_bounded_disorder_not_late (S : StdSort) (B F : Nat) (hF : 0 < F) (es : List Element) (hr : NoSentinel es)
    (hd : Disorder (B + 1 - F) es) : NoLate S B F (es.map .element) := by
  intro pre call post he t ht e hem x hx hb
  obtain ⟨pre', rest', rfl, rfl, hrest⟩ := List.map_eq_append_iff.mp he
  obtain ⟨e', post', rfl, rfl, rfl⟩ := List.map_eq_cons_iff.mp hrest
  simp [submitted] at hem
  subst hem
  have h1 := flushed_dominated hF pre' (fun y hy => hr y (by simp [hy])) t ht x hx
  have h2 := hd pre' e post' rfl
  have h3 : (pre'.filter fun y => decide (¬ Before y x)).length ≤ (pre'.filter fun y => decide (Before e y)).length := by
    apply List.Sublist.length_le
    apply List.monotone_filter_right
    intro y hy
    simp at hy ⊢
    exact before_of_before_of_not hb hy
  omega

/-- C26, summary: sorted input, or input with bounded disorder, gives a sorted file. -/
theorem C26_sorted_output (S : StdSort) (B F : Nat) (hF : 0 < F) (es : List Element) (hr : NoSentinel es)
    (hd : Disorder (B + 1 - F) es) :
    ∃ blocks, ParallelBlocks S B F (es.map .element) blocks ∧ Sorted blocks.flatten ∧ blocks.flatten.Perm es := by
  have hsub : submitted (es.map WriteCall.element) = es := by simp [submitted, List.flatMap_map]
  obtain ⟨blocks, h1, h2⟩ := (C26_sorted_iff_no_late S B F hF (es.map .element) (by rw [hsub]; exact hr)).mpr
    (C26_bounded_disorder_not_late S B F hF es hr hd)
  refine ⟨blocks, h1, h2, ?_⟩
  have := C25_permutation S B F _ _ h1
  rwa [hsub] at this

/-! ### Concrete streams -/

/-- The standard library's sort, as a `StdSort`. -/
def mergeSortStd : StdSort := ⟨fun l => l.mergeSort Element.le, fun l => List.mergeSort_perm l _, fun _ _ => rfl⟩

/-- A node with the given id. -/
def nodeN (i : Int64) : Element := .node { exNode with id := i }

example : Disorder (3 + 1 - 2) [nodeN 2, nodeN 3, nodeN 1, nodeN 4] ∧ ¬ Sorted [nodeN 2, nodeN 3, nodeN 1, nodeN 4] ∧
    NoSentinel [nodeN 2, nodeN 3, nodeN 1, nodeN 4] := by
  refine ⟨?_, ?_, ?_⟩
  · have : ∀ k < 4, ∀ e, [nodeN 2, nodeN 3, nodeN 1, nodeN 4][k]? = some e →
        (([nodeN 2, nodeN 3, nodeN 1, nodeN 4].take k).filter fun x => decide (Before e x)).length ≤ 3 + 1 - 2 := by
      intro k hk e he
      have hk : k = 0 ∨ k = 1 ∨ k = 2 ∨ k = 3 := by omega
      rcases hk with rfl | rfl | rfl | rfl <;> simp at he <;> subst he <;> decide
    intro pre e post h
    have hl := congrArg List.length h
    simp at hl
    have := this pre.length (by omega) e (by rw [h]; simp)
    rwa [h, List.take_left'] at this
    rfl
  · unfold Sorted; decide
  · intro e he; simp [nodeN] at he; rcases he with rfl | rfl | rfl | rfl <;> simp

/-! ## C27: detection of lost order -/

theorem run_min {S : StdSort} {B F : Nat} (hF : 0 < F) (calls : List WriteCall) (s : Orderer) (h : Orderer.run S B F {} calls = .ok s) :
    s.min = s.blocks.getLast?.bind List.head? := by
  induction calls using List.reverseRecOn generalizing s with
  | nil => simp [Orderer.run] at h; subst h; rfl
  | append_singleton calls c ih =>
    rw [run_append, Out.bind_eq_ok] at h
    obtain ⟨t, ht, h⟩ := h
    simp only [run_cons, Out.bind_eq_ok] at h
    obtain ⟨s1, h1, h2⟩ := h
    simp [Orderer.run] at h2
    subst h2
    obtain ⟨-, rfl⟩ := exec_ok h1
    unfold Orderer.checkFull
    split
    · rename_i hl
      obtain ⟨b, e1, e2, e3, e4⟩ := flushTop_perm S F { t with buffer := t.buffer ++ submitted [c] }
      rw [e1, e4]
      have hne : b ≠ [] := by
        rw [e3]
        apply split_ne_nil hF
        intro hn
        have := (S.perm (t.buffer ++ submitted [c])).length_eq
        simp only at hn
        rw [hn] at this
        simp only at hl
        rw [← this] at hl
        simp at hl
      obtain ⟨x, r, rfl⟩ := List.exists_cons_of_ne_nil hne
      simp
    · exact ih t ht

/-- C27. After any calls, a further call panics exactly if it brings an element (not a Sentinel) that belongs before the first element of
the last block emitted, or any element when that block consists of sentinels. -/
theorem C27_detection (S : StdSort) (B F : Nat) (hF : 0 < F) (calls : List WriteCall) (s : Orderer)
    (hs : Orderer.run S B F {} calls = .ok s) (call : WriteCall) :
    Orderer.run S B F {} (calls ++ [call]) = .panic ↔
      ∃ b m, s.blocks.getLast? = some b ∧ b.head? = some m ∧
        ∃ e ∈ submitted [call], e ≠ .sentinel ∧ (m = .sentinel ∨ Before e m) := by
  have hm := run_min hF calls s hs
  have hrun : Orderer.run S B F {} (calls ++ [call]) = s.exec S B F call := by
    rw [run_append, hs]
    simp only [Out.ok_bind, run_cons]
    cases s.exec S B F call <;> rfl
  have key : ∀ e, s.assertOrder e = false ↔ ∃ m, s.min = some m ∧ e ≠ .sentinel ∧ (m = .sentinel ∨ Before e m) := by
    intro e
    unfold Orderer.assertOrder
    cases hmin : s.min with
    | none => simp
    | some m =>
      simp only [Bool.or_eq_false_iff]
      by_cases he : e = .sentinel
      · subst he; simp [Element.isSentinel]
      · have hes : e.isSentinel = false := by cases e <;> simp_all [Element.isSentinel]
        by_cases hms : m = .sentinel
        · subst hms
          simp [hes, he, (C23_sentinel_not_ordered e he).1]
        · have := (C23_order_is_type_id_version e m he hms).1
          simp [hes, he, hms, this]
  rw [hrun]
  constructor
  · intro hp
    by_contra hc
    have ha : ∀ e ∈ submitted [call], s.assertOrder e = true := by
      intro e he
      by_contra hne
      obtain ⟨m, h1, h2, h3⟩ := (key e).mp (by simpa using hne)
      rw [hm] at h1
      obtain ⟨b, hb, hbm⟩ := Option.bind_eq_some_iff.mp h1
      exact hc ⟨b, m, hb, hbm, e, he, h2, h3⟩
    rw [(exec_iff S B F s call).1 ha] at hp
    simp at hp
  · rintro ⟨b, m, hb, hbm, e, he, h2, h3⟩
    refine (exec_iff S B F s call).2 ⟨e, he, (key e).mpr ⟨m, ?_, h2, h3⟩⟩
    rw [hm, hb]; simpa using hbm

/-- C27. Not all loss of order is detected: nodes 1, 3, 2 with a buffer of 1 and blocks of 2 are all accepted, and the file is out of
order. -/
theorem C27_undetected_disorder (S : StdSort) :
    ParallelBlocks S 1 2 [.element (nodeN 1), .element (nodeN 3), .element (nodeN 2)] [[nodeN 1, nodeN 3], [nodeN 2]] ∧
    ¬ Sorted [[nodeN 1, nodeN 3], [nodeN 2]].flatten := by
  have h13 : S.sort [nodeN 1, nodeN 3] = [nodeN 1, nodeN 3] :=
    sort_of_sorted S (by intro e he; simp [nodeN] at he; rcases he with rfl | rfl <;> simp) (by unfold Sorted; decide)
  have h2 : S.sort [nodeN 2] = [nodeN 2] :=
    sort_of_sorted S (by intro e he; simp [nodeN] at he; subst he; simp) (by unfold Sorted; decide)
  refine ⟨⟨⟨[nodeN 2], some (nodeN 1), [[nodeN 1, nodeN 3]]⟩, ⟨[], some (nodeN 2), [[nodeN 1, nodeN 3], [nodeN 2]]⟩, ?_, ?_, rfl⟩, by
    unfold Sorted; decide⟩
  · have hsp : splitFileBlock 2 [nodeN 1, nodeN 3] = ([nodeN 1, nodeN 3], []) := rfl
    have hc : (nodeN 2).cmp (nodeN 1) = .gt := by decide
    simp [Orderer.run, Orderer.exec, Orderer.push, Orderer.assertOrder, Orderer.checkFull, Orderer.flushTop, h13, Orderer.emit, hsp, hc]
  · unfold Orderer.FlushAll
    simp only [h2]
    exact .step _ _ (by simp) (.done _ (by simp [Orderer.emit]; decide))

/-! ## C34: round trip through the parallel writer -/

theorem sorted_infix {a b l : List Element} (h : Sorted (a ++ l ++ b)) : Sorted l :=
  List.Pairwise.sublist (((List.sublist_append_right a l).trans (List.sublist_append_left _ b))) h

theorem run_sorted {S : StdSort} {B F : Nat} (calls : List WriteCall) (hr : NoSentinel (submitted calls)) (hs : Sorted (submitted calls))
    (s : Orderer) (h : Orderer.run S B F {} calls = .ok s) : s.blocks.flatten ++ s.buffer = submitted calls := by
  induction calls using List.reverseRecOn generalizing s with
  | nil => simp [Orderer.run] at h; subst h; rfl
  | append_singleton calls c ih =>
    rw [run_append, Out.bind_eq_ok] at h
    obtain ⟨t, ht, h⟩ := h
    simp only [run_cons, Out.bind_eq_ok] at h
    obtain ⟨s1, h1, h2⟩ := h
    simp [Orderer.run] at h2
    subst h2
    obtain ⟨-, rfl⟩ := exec_ok h1
    rw [submitted_append] at hr hs ⊢
    have hi := ih (fun e he => hr e (by simp [he])) (List.pairwise_append.mp hs).1 t ht
    unfold Orderer.checkFull
    split
    · obtain ⟨b, e1, e2, e3, -⟩ := flushTop_perm S F { t with buffer := t.buffer ++ submitted [c] }
      have hsort : S.sort (t.buffer ++ submitted [c]) = t.buffer ++ submitted [c] := by
        apply sort_of_sorted
        · intro e he
          apply hr
          rw [← hi]
          simp only [List.mem_append] at he ⊢
          tauto
        · apply sorted_infix (a := t.blocks.flatten) (b := [])
          rw [← hi] at hs
          simpa using hs
      simp only [hsort] at e2
      rw [e1]
      simp only [List.flatten_append, List.flatten_cons, List.flatten_nil, List.append_nil, List.append_assoc]
      rw [e2, ← hi, List.append_assoc]
    · rw [← hi, List.append_assoc]

/-- For sorted input the blocks are the input, cut into pieces. -/
theorem blocks_sorted {S : StdSort} {B F : Nat} {calls : List WriteCall} (hr : NoSentinel (submitted calls)) (hs : Sorted (submitted calls))
    {blocks : List (List Element)} (h : ParallelBlocks S B F calls blocks) : blocks.flatten = submitted calls := by
  obtain ⟨s, s', h1, h2, rfl⟩ := h
  have hi := run_sorted calls hr hs s h1
  obtain ⟨-, new', e2, p2⟩ := flushLoop_perm h2
  simp only at e2 p2
  rw [e2, List.flatten_append, p2, sort_of_sorted S, hi]
  · intro e he; apply hr; rw [← hi]; simp [he]
  · apply sorted_infix (a := s.blocks.flatten) (b := [])
    rw [← hi] at hs
    simpa using hs

theorem homogeneous_of_oneType {b : List Element} (h : OneType b) (hr : NoSentinel b) : Homogeneous b := by
  cases b with
  | nil => left; simp
  | cons x b =>
    cases x with
    | node n => left; intro e he; have := h e he _ (List.mem_cons_self); cases e <;> simp_all [Element.sameType]
    | way n => right; left; intro e he; have := h e he _ (List.mem_cons_self); cases e <;> simp_all [Element.sameType]
    | relation n => right; right; intro e he; have := h e he _ (List.mem_cons_self); cases e <;> simp_all [Element.sameType]
    | sentinel => exact absurd rfl (hr _ (List.mem_cons_self))

/-- Sequential reading of a file made of a header and homogeneous data blocks. -/
theorem reads_written_blocks {z : Zlib} (hz : z.Lossless) {c : CompressionType} {info : FileInfo} {blocks : List (List Element)}
    (hn : ¬ EmptyInfo info) (hh : HeaderFits z c info) (hg : ∀ b ∈ blocks, Homogeneous b) (hfit : ∀ b ∈ blocks, Fits z c b)
    (es : List Element) (r : End) :
    ReadsElements z (blockBytes z c (.header info :: blocks.map .data)) es r ↔ es = blocks.flatten.map Element.quant ∧ r = .done := by
  obtain ⟨fuel, hb⟩ := hasBlocks_written hz hn hh hg hfit
  rw [reads_iff hb (by simp)]
  have h2 := stream_data blocks hg
  have h3 : (blocks.map FileBlock.data).map FileBlock.readBack = blocks.map fun b => .data (b.map Element.quant) := by
    rw [List.map_map]
    apply List.map_congr_left
    intro b hb
    simp [FileBlock.readBack, kept_homogeneous (hg b hb)]
  rw [h3] at h2
  simp only [streamAll, h2, Prod.mk.injEq]

/-- C34. A sorted stream of elements on the coordinate grid, written through the parallel writer (any calls, any buffer size, any positive block
size, any behaviour of the encoding threads) and read back sequentially, is the same stream. -/
theorem C34_parallel_write_sequential_read (S : StdSort) (z : Zlib) (hz : z.Lossless) (c : CompressionType) (info : FileInfo)
    (B F : Nat) (hF : 0 < F) (calls : List WriteCall) (hr : NoSentinel (submitted calls)) (hs : Sorted (submitted calls))
    (hx : ∀ e ∈ submitted calls, Exact e) (hn : ¬ EmptyInfo info) (hh : HeaderFits z c info)
    (hfit : ∀ run, run <:+: submitted calls → run.length ≤ F → Fits z c run) :
    ∃ blocks, ParallelBlocks S B F calls blocks ∧ (∀ blocks', ParallelBlocks S B F calls blocks' → blocks' = blocks) ∧
      ∀ threads p, Pipeline.Steps z c threads (.init z info c blocks) p → p.Drained →
        ∀ es' r, ReadsElements z p.writer.file es' r ↔ es' = submitted calls ∧ r = .done := by
  obtain ⟨blocks, hb, -⟩ := (C26_sorted_iff_no_late S B F hF calls hr).mpr (C26_sorted_input_not_late S B F calls hs)
  refine ⟨blocks, hb, ?_, ?_⟩
  · rintro _ ⟨t, t', h1, h2, rfl⟩
    obtain ⟨s, s', h1', h2', rfl⟩ := hb
    rw [h1'] at h1
    simp at h1
    subst h1
    rw [flushLoop_det h2 h2']
  · intro threads p hp hd es' r
    rw [((C24_blocks_in_order z info c threads blocks p hp).2 hd).1]
    have hflat := blocks_sorted hr hs hb
    have hshape := C35_block_shape S B F hF calls blocks hb
    have hmem : ∀ b ∈ blocks, ∀ e ∈ b, e ∈ submitted calls := fun b hb e he => by
      rw [← hflat]; exact List.mem_flatten.mpr ⟨b, hb, he⟩
    rw [reads_written_blocks hz hn hh (fun b hb => homogeneous_of_oneType (hshape b hb).2.2 fun e he => hr e (hmem b hb e he))
      (fun b hb => hfit b (hflat ▸ infix_of_mem_flatten hb) (hshape b hb).2.1), hflat, map_quant_exact hx]

/-- The hypotheses of C34 hold for a concrete stream. -/
example : ∃ calls : List WriteCall, submitted calls = realOnes exStream ∧ NoSentinel (submitted calls) ∧ Sorted (submitted calls) ∧
    (∀ e ∈ submitted calls, Exact e) ∧ ∀ run, run <:+: submitted calls → run.length ≤ 2 → Fits exZ .zlib run := by
  refine ⟨[.element (.node exNode), .elements [.node { exNode with id := 8 }, .way exWay], .element (.relation exRelation)], rfl, ?_, ?_, ?_, ?_⟩
  · intro e he; simp [submitted] at he; rcases he with rfl | rfl | rfl | rfl <;> simp
  · unfold Sorted; decide
  · intro e he; exact exStream_exact e (by simp [submitted] at he; simp [exStream]; tauto)
  · intro run hrun hl; exact exStream_fits run hrun (by omega)

/-! ## C51: parallel read, filter, parallel write -/

/-- C51. The documented pipeline: read a file with `parallel_for_each`, keep some elements in a `ThreadLocalAccumulator`, hand each batch
to `write_elements` of a parallel writer, close it. If no call panics, then for every schedule of the reading threads and of the encoding
threads, the blocks of the new file hold exactly the kept elements of the old one, each as often as before, in homogeneous blocks of bounded size. -/
theorem C51_filter_pipeline (S : StdSort) (z : Zlib) (c : CompressionType) (info : FileInfo) (file : Bytes) (bs : List FileBlock)
    (hb : HasBlocks z file bs) (T : Nat) (keep : Element → Bool) (p : Pool T Element (TlState T))
    (hp : ParallelForEach z file (tlAct keep) ⟨fun _ => [], []⟩ p) (B F : Nat) (hF : 0 < F) (blocks : List (List Element))
    (hw : ParallelBlocks S B F (p.shared.batches.map .elements) blocks)
    (threads : Nat) (q : Pipeline) (hq : Pipeline.Steps z c threads (.init z info c blocks) q) (hd : q.Drained) :
    q.writer.file = blockBytes z c (.header info :: blocks.map .data) ∧
    blocks.flatten.Perm ((bs.flatMap elementsOf).filter keep) ∧
    ∀ b ∈ blocks, Homogeneous b ∧ 1 ≤ b.length ∧ b.length ≤ F := by
  have hsub : submitted (p.shared.batches.map WriteCall.elements) = p.shared.batches.flatten := by
    simp [submitted, List.flatMap_map, List.flatMap_def, Function.comp_def]
  have hperm := C25_permutation S B F _ _ hw
  rw [hsub] at hperm
  have h2 := hperm.trans (C28_accumulator_loses_nothing z file bs hb T keep p hp).2.1
  refine ⟨((C24_blocks_in_order z info c threads blocks q hq).2 hd).1, h2, ?_⟩
  intro b hbm
  obtain ⟨h3, h4, h5⟩ := C35_block_shape S B F hF _ _ hw b hbm
  refine ⟨homogeneous_of_oneType h5 ?_, h3, h4⟩
  intro e he hes
  have he' := h2.mem_iff.mp (List.mem_flatten.mpr ⟨b, hbm, he⟩)
  obtain ⟨he', -⟩ := List.mem_filter.mp he'
  obtain ⟨b', hb', he'⟩ := List.mem_flatMap.mp he'
  have := hasBlocks_real hb b' hb' e he'
  rw [hes] at this
  simp [Element.isSentinel] at this

end OsmIo
