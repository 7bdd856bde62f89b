import Verif.Lemmas.ParallelMemory
import Verif.Props.ParallelSystem
/-! # C90: what waits inside the parallel writer -/
set_option linter.unusedSimpArgs false
set_option linter.flexible false
namespace OsmIo
open Spec

/-! ## The queues -/

/-- C90. At every moment, whatever the program does and the threads have done so far, each of the three queues holds at most as many commands as it
was made for (256 in the code) and there are at most as many blocks being encoded as there are encoding threads (4 in the code). -/
theorem C90_queues (g : ParSystem.Config) (ops : List Op) (s : ParSystem) (hs : Occurs g ops s) :
    s.orderQueue.length ≤ g.cap ∧ s.queue.length ≤ g.cap ∧ s.encoding.length ≤ g.threads ∧ s.writeQueue.length ≤ g.cap := by
  obtain ⟨h1, h2, h3, h4⟩ := ParSystem.steps_bounded hs
  exact ⟨h1, h2, h3, h4⟩

/-! ## The blocks that wait for an earlier one -/

/-- C90. What the writing thread keeps are encoded blocks of the file, each once, which come after the next one to be written: when the file contains the
first `k` blocks, it keeps at most `n - k - 1` of the `n` blocks, and none when all are written. -/
theorem C90_waiting (g : ParSystem.Config) (hF : 0 < g.blockSize) (ops : List Op) (blocks : List (List Element))
    (hb : ParallelBlocks g.S g.bufferSize g.blockSize (callsOf ops) blocks) (s : ParSystem) (hs : Occurs g (.header :: ops) s) :
    ∃ k, k ≤ blocks.length ∧ (∀ file, s.file = some file → file = blockBytes g.z g.c (.header g.info :: (blocks.take k).map .data)) ∧
      (∀ x ∈ s.held, k + 1 < x.1 ∧ ∃ b, blocks[x.1 - 1]? = some b ∧ x.2 = (FileBlock.data b).serialize g.z g.c) ∧
      (s.held.map (·.1)).Nodup ∧ s.held.length ≤ blocks.length - k - 1 := by
  obtain ⟨o, o', hr, hl, rfl⟩ := hb
  have hpool := ParSystem.steps_pools hF hs (show Orderer.run g.S g.bufferSize g.blockSize {} (ParSystem.writes (.header :: ops)) = .ok o from hr) hl
  have hinv := Pipeline.steps_inv (Pipeline.init_inv g.z g.info g.c o'.blocks) hpool
  obtain ⟨hpos, hle, hperm, hheld, hfile⟩ := hinv
  simp only [ParSystem.pools] at hpos hle hheld hfile
  have hT := Pipeline.target_numbered g.z g.c o'.blocks
  have hsub : ∀ x ∈ s.held, x ∈ (Pipeline.target g.z g.c o'.blocks).drop (s.next - 1) := by
    intro x hx
    refine hperm.mem_iff.mp ?_
    simp [Pipeline.items, ParSystem.pools, hx]
  have hnd : (s.held.map (·.1)).Nodup := by
    have h1 := Pipeline.numbered_drop_nodup hT (s.next - 1)
    have h2 := (hperm.map (·.1)).nodup_iff.mpr h1
    refine List.Nodup.sublist ?_ h2
    apply List.Sublist.map
    simp only [Pipeline.items, ParSystem.pools]
    first
      | exact List.sublist_append_right _ _
      | exact (List.sublist_append_left _ _)
  have hkey : ∀ x ∈ s.held, s.next - 1 + 1 < x.1 ∧ ∃ b, o'.blocks[x.1 - 1]? = some b ∧ x.2 = (FileBlock.data b).serialize g.z g.c := by
    intro x hx
    obtain ⟨h1, h2⟩ := Pipeline.numbered_mem_drop hT (hsub x hx)
    have h3 := hheld x hx
    refine ⟨by omega, ?_⟩
    simp only [Pipeline.target, List.getElem?_map, List.getElem?_zipIdx, Option.map_map] at h2
    cases hg : o'.blocks[x.1 - 1]? with
    | none => simp [hg] at h2
    | some b =>
      refine ⟨b, rfl, ?_⟩
      simp only [hg, Option.map_some, Option.some.injEq, Function.comp_apply] at h2
      rw [← h2]
  refine ⟨s.next - 1, hle, ?_, hkey, hnd, ?_⟩
  · intro file hf
    cases hw : s.writer with
    | none => simp [ParSystem.file, hw] at hf
    | some w =>
      simp only [ParSystem.file, hw, Option.map_some, Option.some.injEq] at hf
      simp only [hw, Option.getD_some] at hfile
      subst hf
      rw [hfile]
      simp [Writer.writeHeader, Writer.writeFileBlock, Writer.writeBlob, Writer.fromFileInfo, blockBytes]
  · have h2 : ∀ i ∈ s.held.map (·.1), i ∈ (List.range' (s.next + 1) (o'.blocks.length - (s.next - 1) - 1)) := by
      intro i hi
      obtain ⟨x, hx, rfl⟩ := List.mem_map.mp hi
      obtain ⟨h1, b, h3, -⟩ := hkey x hx
      have := (List.getElem?_eq_some_iff.mp h3).1
      simp only [List.mem_range'_1]
      omega
    have := (List.subperm_of_subset hnd h2).length_le
    simpa using this

/-- C90. There is no bound on their number: for every program (with at least two encoding threads) there is an order of the threads in which only the
header is in the file while all blocks but the first have been made and encoded and are kept in memory. -/
theorem C90_waiting_all (g : ParSystem.Config) (hF : 0 < g.blockSize) (hq : 0 < g.cap) (ht : 2 ≤ g.threads) (ops : List Op) (blocks : List (List Element))
    (hb : ParallelBlocks g.S g.bufferSize g.blockSize (callsOf ops) blocks) :
    ∃ s, Occurs g (.header :: ops) s ∧ s.file = some (blockBytes g.z g.c [.header g.info]) ∧ s.held.length = blocks.length - 1 ∧
      ∀ k b, blocks[k + 1]? = some b → (k + 2, (FileBlock.data b).serialize g.z g.c) ∈ s.held := by
  obtain ⟨o, o', hr, hl, rfl⟩ := hb
  obtain ⟨s, h1, h2, h3, h4⟩ := ParSystem.lag_all hq ht ops hr hl
  refine ⟨s, h1, ?_, ?_, ?_⟩
  · simp [ParSystem.file, h2.writer, Writer.writeHeader, Writer.writeFileBlock, Writer.writeBlob, Writer.fromFileInfo, blockBytes]
  · unfold ParSystem.Ready at h3
    rw [h4] at h3
    rcases h2.first with ⟨a, -, c⟩ | ⟨-, b, -⟩
    · simp [c]; omega
    · omega
  · intro k b hkb
    have hpool := ParSystem.steps_pools hF h1 (show Orderer.run g.S g.bufferSize g.blockSize {} (ParSystem.writes (.header :: ops)) = .ok o from hr) hl
    obtain ⟨-, -, hperm, -, -⟩ := Pipeline.steps_inv (Pipeline.init_inv g.z g.info g.c o'.blocks) hpool
    have hmem : (k + 2, (FileBlock.data b).serialize g.z g.c) ∈ (Pipeline.target g.z g.c o'.blocks).drop (s.next - 1) := by
      rw [h2.next]
      simp only [Nat.sub_self, List.drop_zero, Pipeline.target, List.mem_map]
      refine ⟨(b, k + 2), ?_, rfl⟩
      refine List.mem_of_getElem? (i := k + 1) ?_
      rw [List.getElem?_zipIdx, hkb]
      simp
      omega
    have hit := hperm.mem_iff.mpr hmem
    unfold ParSystem.Ready at h3
    rw [h4] at h3
    simp [Pipeline.items, ParSystem.pools, h2.queue, h2.write, h3, ParSystem.blobs] at hit
    rcases h2.first with ⟨a, -, c⟩ | ⟨⟨b1, he⟩, -, -⟩
    · rw [a] at h3
      have : o'.blocks = [] := List.length_eq_zero_iff.mp h3.symm
      simp [this] at hkb
    · have hd : List.drop o'.blocks.length
          (List.map ((fun x : Nat × List Element => (x.1, FileBlock.serialize g.z g.c (FileBlock.data x.2))) ∘ fun x : List Element × Nat => (x.2, x.1))
            (o'.blocks.zipIdx 1)) = [] := by
        apply List.drop_eq_nil_of_le
        simp
      simp [he] at hit
      rw [hd] at hit
      simpa using hit

/-- C90. Hence for every number there are a program and an order of the threads in which so many encoded blocks are in memory. -/
theorem C90_waiting_unbounded (g : ParSystem.Config) (hF : 0 < g.blockSize) (hq : 0 < g.cap) (ht : 2 ≤ g.threads) (n : Nat) :
    ∃ ops s, Occurs g (.header :: ops) s ∧ n ≤ s.held.length := by
  have hsub : ∀ es : List Element, submitted (es.map WriteCall.element) = es := fun es => by simp [submitted, List.flatMap_map]
  obtain ⟨blocks, h1, -, h2⟩ := C26_sorted_output g.S g.bufferSize g.blockSize hF (List.replicate ((n + 1) * g.blockSize) (nodeN 1))
    (by intro e he; rw [(List.mem_replicate.mp he).2]; exact (nomatch ·)) (by
      intro pre e post he
      have hall : ∀ x ∈ pre, ¬ Before e x := by
        intro x hx
        have h1 : x = nodeN 1 := (List.mem_replicate.mp (he ▸ (by simp [hx]) : x ∈ List.replicate ((n + 1) * g.blockSize) (nodeN 1))).2
        have h2 : e = nodeN 1 := (List.mem_replicate.mp (he ▸ (by simp) : e ∈ List.replicate ((n + 1) * g.blockSize) (nodeN 1))).2
        rw [h1, h2]
        decide
      rw [List.filter_eq_nil_iff.mpr (by simpa using hall)]
      simp)
  have hops : callsOf ((List.replicate ((n + 1) * g.blockSize) (nodeN 1)).map fun e => Op.write (.element e)) =
      (List.replicate ((n + 1) * g.blockSize) (nodeN 1)).map .element := by
    simp [callsOf]
  obtain ⟨s, k1, -, k2, -⟩ := C90_waiting_all g hF hq ht _ blocks (hops ▸ h1)
  refine ⟨_, s, k1, ?_⟩
  have hle : ∀ b ∈ blocks, b.length ≤ g.blockSize := fun b hb => (C35_block_shape _ _ _ hF _ _ h1 b hb).2.1
  have hlen : blocks.flatten.length ≤ blocks.length * g.blockSize := by
    rw [List.length_flatten]
    have := List.sum_le_card_nsmul (blocks.map List.length) g.blockSize (by simpa using hle)
    simpa using this
  rw [h2.length_eq, List.length_replicate] at hlen
  have := Nat.le_of_mul_le_mul_right hlen hF
  omega

/-! ## The ordering buffer -/

/-- C90. A call puts at most one block out of the ordering buffer, however many elements it hands over: after any sequence of calls at most `calls · blockSize`
of the elements have left it. -/
theorem C90_buffer_grows (S : StdSort) (B F : Nat) (calls : List WriteCall) (s : Orderer) (h : Orderer.run S B F {} calls = .ok s) :
    (submitted calls).length ≤ s.buffer.length + calls.length * F := by
  have gen : ∀ (calls : List WriteCall) (s s' : Orderer), s.run S B F calls = .ok s' →
      s.buffer.length + (submitted calls).length ≤ s'.buffer.length + calls.length * F := by
    intro calls
    induction calls with
    | nil => intro s s' h; simp [Orderer.run] at h; subst h; simp [submitted]
    | cons c cs ih =>
      intro s s' h
      rw [run_cons, Out.bind_eq_ok] at h
      obtain ⟨s1, h1, h2⟩ := h
      obtain ⟨-, rfl⟩ := exec_ok h1
      have := ih _ _ h2
      rw [submitted_cons, List.length_append, List.length_cons, Nat.add_mul]
      have hc : s.buffer.length + (submitted [c]).length ≤ (Orderer.checkFull S B F { s with buffer := s.buffer ++ submitted [c] }).buffer.length + F := by
        unfold Orderer.checkFull
        split
        · obtain ⟨b, e1, e2, e3, -⟩ := flushTop_perm S F { s with buffer := s.buffer ++ submitted [c] }
          have hl := congrArg List.length e2
          simp only [(S.perm _).length_eq, List.length_append] at hl
          have := split_length F (S.sort (s.buffer ++ submitted [c]))
          simp only at e3
          rw [← e3] at this
          omega
        · simp
      omega
  simpa using gen calls {} s h

theorem split_full (n : Nat) (buf : List Element) : (splitFileBlock n buf).1.length = n ∨ (splitFileBlock n buf).2 = [] ∨
    ∃ f e, (splitFileBlock n buf).1.head? = some f ∧ (splitFileBlock n buf).2.head? = some e ∧ e.sameType f = false := by
  have gen : ∀ (n : Nat) (els buf : List Element), (splitGo n els buf).1.length = els.length + n ∨ (splitGo n els buf).2 = [] ∨
      ∃ f e, (splitGo n els buf).1.head? = some f ∧ (splitGo n els buf).2.head? = some e ∧ e.sameType f = false := by
    intro n
    induction n with
    | zero => intro els buf; left; simp [splitGo]
    | succ n ih =>
      intro els buf
      cases buf with
      | nil => right; left; simp [splitGo]
      | cons e buf =>
        unfold splitGo
        split
        · rcases ih (els ++ [e]) buf with h | h | h
          · left; rw [h]; simp; omega
          · right; left; exact h
          · right; right; exact h
        · rename_i hc
          right; right
          cases els with
          | nil => simp at hc
          | cons f els => exact ⟨f, e, rfl, rfl, by simpa using hc⟩
  simpa [splitFileBlock] using gen n [] buf

theorem rank_lt_of_sorted {f e : Element} (hf : f ≠ .sentinel) (he : e ≠ .sentinel) (h : ¬ Before e f) (ht : e.sameType f = false) : rank f < rank e := by
  unfold Before at h
  cases f <;> cases e <;> simp_all [rank, Element.sameType]

/-- C90. Elements handed over in the order of the file, at most `blockSize` of them at a time, do not pile up in the ordering buffer: it holds at most
`element_ordering_buffer_size` elements and, after blocks of ways or relations have begun, once or twice a block more. -/
theorem C90_buffer_sorted (S : StdSort) (B F : Nat) (hF : 0 < F) (calls : List WriteCall) (hr : NoSentinel (submitted calls)) (hs : Sorted (submitted calls))
    (hc : ∀ c ∈ calls, (submitted [c]).length ≤ F) (s : Orderer) (h : Orderer.run S B F {} calls = .ok s) :
    s.buffer.length ≤ B + 2 * (F - 1) := by
  have key : s.buffer.length ≤ B + (F - 1) * (s.buffer.head?.elim 0 rank) ∧ s.blocks.flatten ++ s.buffer = submitted calls := by
    induction calls using List.reverseRecOn generalizing s with
    | nil => simp [Orderer.run] at h; subst h; exact ⟨by simp, rfl⟩
    | append_singleton calls c ih =>
      refine ⟨?_, run_sorted _ hr hs s h⟩
      rw [run_append, Out.bind_eq_ok] at h
      obtain ⟨t, ht, h⟩ := h
      simp only [run_cons, Out.bind_eq_ok] at h
      obtain ⟨s1, h1, h2⟩ := h
      simp [Orderer.run] at h2
      subst h2
      rw [submitted_append] at hr hs
      obtain ⟨ih1, ih2⟩ := ih (fun x hx => hr x (by simp [hx])) (List.pairwise_append.mp hs).1 (fun c hc' => hc c (by simp [hc'])) t ht
      obtain ⟨-, rfl⟩ := exec_ok h1
      have hk := hc c (by simp)
      rw [← ih2, List.append_assoc] at hr hs
      have hrb : NoSentinel (t.buffer ++ submitted [c]) := fun x hx => hr x (by rw [List.mem_append]; exact .inr hx)
      have hsb : Sorted (t.buffer ++ submitted [c]) := (List.pairwise_append.mp hs).2.1
      unfold Orderer.checkFull
      split
      · have e0 : ({ t with buffer := t.buffer ++ submitted [c] } : Orderer).flushTop S F =
            ({ t with buffer := t.buffer ++ submitted [c] } : Orderer).emit F := by
          unfold Orderer.flushTop
          simp only [sort_of_sorted S hrb hsb]
        rw [e0]
        simp only [Orderer.emit]
        rename_i hB
        have a1 := split_append F (t.buffer ++ submitted [c])
        have a2 := split_length F (t.buffer ++ submitted [c])
        have a3 := split_full F (t.buffer ++ submitted [c])
        have a4 := split_ne_nil hF (buf := t.buffer ++ submitted [c]) (by intro hn; simp [hn] at hB)
        generalize (splitFileBlock F (t.buffer ++ submitted [c])).1 = blk at *
        generalize (splitFileBlock F (t.buffer ++ submitted [c])).2 = rest at *
        rw [← a1] at hrb hsb
        have hlen := congrArg List.length a1
        simp only [List.length_append] at hlen
        obtain ⟨f, blk', rfl⟩ := List.exists_cons_of_ne_nil a4
        cases rest with
        | nil => simp
        | cons e rest =>
          have hmono : ¬ Before e f := (List.pairwise_append.mp hsb).2.2 f (by simp) e (by simp)
          have hfs := hrb f (by simp)
          have hes := hrb e (by simp)
          have hle : rank f ≤ rank e := by
            unfold Before at hmono
            by_contra hn
            exact hmono (.inl (by omega))
          have hhead : t.buffer ≠ [] → t.buffer.head? = some f := by
            intro hne
            obtain ⟨y, ys, hy⟩ := List.exists_cons_of_ne_nil hne
            rw [hy] at a1 ⊢
            simp only [List.cons_append, List.cons.injEq] at a1
            simp [a1.1]
          simp only [List.head?_cons, Option.elim_some]
          have hb : t.buffer.length ≤ B + (F - 1) * rank f := by
            by_cases hne : t.buffer = []
            · simp [hne]
            · simpa [hhead hne] using ih1
          rcases a3 with hfull | hnil | ⟨f', e', hf', he', hty⟩
          · have := Nat.mul_le_mul_left (F - 1) hle
            omega
          · simp at hnil
          · simp only [List.head?_cons, Option.some.injEq] at hf' he'
            subst hf' he'
            have hlt := rank_lt_of_sorted hfs hes hmono hty
            have := Nat.mul_le_mul_left (F - 1) hlt
            rw [Nat.mul_succ] at this
            have : 1 ≤ (f :: blk').length := by simp
            omega
      · rename_i hB
        simp only at hB ⊢
        omega
  have hrank : s.buffer.head?.elim 0 rank ≤ 2 := by
    cases hb : s.buffer with
    | nil => simp
    | cons e r =>
      have : e ≠ .sentinel := hr e (by rw [← key.2, hb]; simp)
      cases e <;> simp_all [rank]
  have := Nat.mul_le_mul_left (F - 1) hrank
  omega

/-! ### Concrete programs -/

/-- Three nodes one after the other. -/
theorem exThreeBlocks : ParallelBlocks mergeSortStd 3 1 (callsOf [.write (.element (nodeN 1)), .write (.element (nodeN 2)), .write (.element (nodeN 3))])
    [[nodeN 1], [nodeN 2], [nodeN 3]] := by
  refine ⟨⟨[nodeN 1, nodeN 2, nodeN 3], none, []⟩, ⟨[], some (nodeN 3), [[nodeN 1], [nodeN 2], [nodeN 3]]⟩, by decide +kernel, ?_, rfl⟩
  unfold Orderer.FlushAll
  simp only
  rw [sort_of_sorted mergeSortStd (by unfold NoSentinel; decide +kernel) (by unfold Sorted; decide +kernel)]
  exact .step _ _ (by simp) (.step _ _ (by decide +kernel) (.step _ _ (by decide +kernel) (.done _ (by decide +kernel))))

/-- With a block for each node, queues of length one and two encoding threads: the second and the third block wait while the first is encoded. -/
example (z : Zlib) (info : FileInfo) (c : CompressionType) : ∃ s, Occurs ⟨z, mergeSortStd, info, c, 3, 1, 1, 2⟩
    [.header, .write (.element (nodeN 1)), .write (.element (nodeN 2)), .write (.element (nodeN 3))] s ∧ s.held.length = 2 := by
  obtain ⟨s, h1, -, h2, -⟩ := C90_waiting_all ⟨z, mergeSortStd, info, c, 3, 1, 1, 2⟩ (by simp) (by simp) (by simp) _ _ exThreeBlocks
  exact ⟨s, h1, h2⟩

/-- A call with three nodes, blocks of one node and a buffer for one: two nodes stay in the buffer. -/
example : ∃ s, Orderer.run mergeSortStd 1 1 {} [.elements [nodeN 1, nodeN 2, nodeN 3]] = .ok s ∧ s.buffer = [nodeN 2, nodeN 3] := by
  have h := (exec_iff mergeSortStd 1 1 {} (.elements [nodeN 1, nodeN 2, nodeN 3])).1 (by decide +kernel)
  refine ⟨_, by rw [run_cons, h]; rfl, ?_⟩
  unfold Orderer.checkFull
  rw [if_pos (by decide +kernel)]
  unfold Orderer.flushTop
  simp only
  rw [sort_of_sorted mergeSortStd (by unfold NoSentinel; decide +kernel) (by unfold Sorted; decide +kernel)]
  decide +kernel

/-- The sequence of calls in `C90_buffer_sorted` may contain all types. -/
example : NoSentinel (submitted [.elements [nodeN 1, nodeN 2], .element (nodeN 3)]) ∧ Sorted (submitted [.elements [nodeN 1, nodeN 2], .element (nodeN 3)]) ∧
    ∀ c ∈ [WriteCall.elements [nodeN 1, nodeN 2], .element (nodeN 3)], (submitted [c]).length ≤ 2 := by
  refine ⟨?_, ?_, ?_⟩
  · unfold NoSentinel; decide +kernel
  · unfold Sorted; decide +kernel
  · decide +kernel

end OsmIo
