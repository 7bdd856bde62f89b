import Verif.Lemmas.ParallelIo
import Verif.Spec.ParallelIo
import Verif.Props.ParallelSystem
import Verif.Props.Accumulator
/-! # C70: the parallel copy program as a whole -/
set_option linter.unusedSimpArgs false
set_option linter.flexible false
namespace OsmIo
open Spec

/-! ### The ordering thread with a large buffer -/

theorem sameType_rank (a b : Element) : a.sameType b = true ↔ rank a = rank b := by
  cases a <;> cases b <;> simp [Element.sameType, rank]

theorem splitGo_maximal : ∀ (n : Nat) (els buf : List Element),
    (splitGo n els buf).1.length = els.length + n ∨ (splitGo n els buf).2 = [] ∨
      ∃ f r h, (splitGo n els buf).2 = f :: r ∧ (splitGo n els buf).1.head? = some h ∧ f.sameType h = false := by
  intro n
  induction n with
  | zero => intro els buf; simp [splitGo]
  | succ n ih =>
    intro els buf
    cases buf with
    | nil => simp [splitGo]
    | cons e buf =>
      unfold splitGo
      split
      · rcases ih (els ++ [e]) buf with h | h | h
        · left; rw [h]; simp; omega
        · exact .inr (.inl h)
        · exact .inr (.inr h)
      · rename_i hc
        cases els with
        | nil => simp at hc
        | cons x els => exact .inr (.inr ⟨e, buf, x, rfl, rfl, by simpa using hc⟩)

theorem flushLoop_full {F : Nat} (hF : 0 < F) {s s' : Orderer} (h : Orderer.FlushLoop F s s') :
    ∃ new, s'.blocks = s.blocks ++ new ∧ AsFull F new ∧ new.flatten = s.buffer := by
  induction h with
  | done s h => exact ⟨[], by simp, ⟨by simp, .nil⟩, by simp [h]⟩
  | step s s' hn _ ih =>
    obtain ⟨new, h2, h3, h4⟩ := ih
    have hone := split_oneType F s.buffer
    have hlen := split_length F s.buffer
    have hne := split_ne_nil hF hn
    have hmax := splitGo_maximal F [] s.buffer
    have hemit : (s.emit F).buffer = (splitFileBlock F s.buffer).2 := by simp [Orderer.emit]
    refine ⟨(splitFileBlock F s.buffer).1 :: new, by rw [h2]; simp [Orderer.emit], ⟨?_, ?_⟩, ?_⟩
    · intro b hb
      rcases List.mem_cons.mp hb with rfl | hb
      · exact ⟨List.length_pos_iff.mpr hne, hlen, fun e he f hf => (sameType_rank e f).mp (hone e he f hf)⟩
      · exact h3.1 b hb
    · cases new with
      | nil => exact .singleton _
      | cons b new =>
        refine List.isChain_cons_cons.mpr ⟨?_, h3.2⟩
        rw [hemit] at h4
        change (splitFileBlock F s.buffer).1.length = _ ∨ (splitFileBlock F s.buffer).2 = [] ∨
          ∃ f r h, (splitFileBlock F s.buffer).2 = f :: r ∧ (splitFileBlock F s.buffer).1.head? = some h ∧ f.sameType h = false at hmax
        obtain ⟨hb1, -, hb3⟩ := h3.1 b (by simp)
        obtain ⟨x, b', rfl⟩ := List.exists_cons_of_ne_nil (List.length_pos_iff.mp hb1)
        rcases hmax with h | h | ⟨f, r, h, e1, e2, e3⟩
        · left; simpa using h
        · rw [h] at h4; simp at h4
        · right
          rw [e1] at h4
          simp at h4
          obtain ⟨rfl, -⟩ := h4
          intro e he f hf hr
          have hh : h ∈ (splitFileBlock F s.buffer).1 := List.mem_of_mem_head? e2
          have h1 : rank e = rank h := (sameType_rank _ _).mp (hone e he h hh)
          have h2 : rank x = rank f := hb3 x (by simp) f hf
          have : x.sameType h = true := (sameType_rank _ _).mpr (by omega)
          rw [this] at e3
          simp at e3
    · simp only [List.flatten_cons, h4, hemit]
      exact split_append F s.buffer

theorem asFull_unique {F : Nat} {a b : List (List Element)} (ha : AsFull F a) (hb : AsFull F b) (h : a.flatten = b.flatten) : a = b := by
  have key : ∀ (x y : List Element) (a b : List (List Element)), AsFull F (x :: a) → AsFull F (y :: b) → (x :: a).flatten = (y :: b).flatten →
      ¬ x.length < y.length := by
    intro x y a b ha hb h hlt
    simp only [List.flatten_cons] at h
    obtain ⟨hx1, hx2, hx3⟩ := ha.1 x (by simp)
    obtain ⟨hy1, hy2, hy3⟩ := hb.1 y (by simp)
    obtain ⟨r, rfl⟩ : x <+: y := List.prefix_of_prefix_length_le (List.prefix_append x a.flatten) (h ▸ List.prefix_append y b.flatten) (by omega)
    rw [List.append_assoc, List.append_cancel_left_eq] at h
    cases a with
    | nil =>
      have := congrArg List.length h
      simp at this hlt
      omega
    | cons z a =>
      obtain ⟨hz1, -, -⟩ := ha.1 z (by simp)
      obtain ⟨f, z', rfl⟩ := List.exists_cons_of_ne_nil (List.length_pos_iff.mp hz1)
      obtain ⟨e, x', rfl⟩ := List.exists_cons_of_ne_nil (List.length_pos_iff.mp hx1)
      cases r with
      | nil => simp at hlt
      | cons f' r =>
        simp at h
        obtain ⟨rfl, -⟩ := h
        rcases (List.isChain_cons_cons.mp ha.2).1 with h | h
        · omega
        · exact h e (by simp) f (by simp) (hy3 e (by simp) f (by simp))
  induction a generalizing b with
  | nil =>
    cases b with
    | nil => rfl
    | cons y b =>
      have := (hb.1 y (by simp)).1
      simp at h
      simp [h.1] at this
  | cons x a ih =>
    cases b with
    | nil =>
      have := (ha.1 x (by simp)).1
      simp at h
      simp [h.1] at this
    | cons y b =>
      have hlen : x.length = y.length := by
        have h1 := key x y a b ha hb h
        have h2 := key y x b a hb ha h.symm
        omega
      simp only [List.flatten_cons] at h
      obtain ⟨rfl, h'⟩ := List.append_inj h hlen
      rw [ih ⟨fun z hz => ha.1 z (List.mem_cons_of_mem _ hz), ha.2.tail⟩ ⟨fun z hz => hb.1 z (List.mem_cons_of_mem _ hz), hb.2.tail⟩ h']

theorem run_small (S : StdSort) (B F : Nat) (calls : List WriteCall) (o : Orderer) (hm : o.min = none)
    (hl : o.buffer.length + (submitted calls).length ≤ B) :
    Orderer.run S B F o calls = .ok { o with buffer := o.buffer ++ submitted calls } := by
  induction calls generalizing o with
  | nil => simp [Orderer.run, submitted]
  | cons c cs ih =>
    rw [submitted_cons] at hl
    simp only [List.length_append] at hl
    rw [run_cons, (exec_iff S B F o c).1 (by intro e _; simp [Orderer.assertOrder, hm])]
    have : Orderer.checkFull S B F { o with buffer := o.buffer ++ submitted [c] } = { o with buffer := o.buffer ++ submitted [c] } := by
      unfold Orderer.checkFull
      rw [if_neg]
      simp
      omega
    rw [this]
    simp only [Out.ok_bind]
    rw [ih { o with buffer := o.buffer ++ submitted [c] } hm (by simp only [List.length_append]; omega)]
    congr 2
    rw [submitted_cons c cs, List.append_assoc]

theorem before_asymm {a b : Element} (h : Before a b) : ¬ Before b a := by
  unfold Before at *
  rcases h with h | ⟨h, h | ⟨h, h'⟩⟩
  · omega
  · rintro (h2 | ⟨-, h2 | ⟨h2, -⟩⟩)
    · omega
    · exact absurd (Int64.lt_trans h h2) (by simp)
    · rw [h2] at h; exact absurd h (by simp)
  · rintro (h2 | ⟨-, h2 | ⟨-, h2⟩⟩)
    · omega
    · rw [h] at h2; exact absurd h2 (by simp)
    · exact absurd (Int32.lt_trans h' h2) (by simp)

theorem ascending_sorted {es : List Element} (h : Ascending es) : Sorted es := h.imp before_asymm

/-- There is only one way to sort what is strictly ascending. -/
theorem sort_ascending (S : StdSort) {l es : List Element} (hp : l.Perm es) (hn : NoSentinel es) (h : Ascending es) : S.sort l = es := by
  have hs := sort_sorted S (noSentinel_perm hp.symm hn)
  have hp' := (S.perm l).trans hp
  generalize S.sort l = m at *
  induction es generalizing m l with
  | nil => exact List.perm_nil.mp hp'
  | cons e es ih =>
    obtain ⟨h1, h2⟩ := List.pairwise_cons.mp h
    cases m with
    | nil => simpa using hp'.length_eq
    | cons x m =>
      obtain ⟨g1, g2⟩ := List.pairwise_cons.mp hs
      have hx : x = e := by
        by_contra hne
        have hx : x ∈ es := by
          rcases List.mem_cons.mp (hp'.mem_iff.mp (List.mem_cons_self)) with h | h
          · exact absurd h hne
          · exact h
        have he : e ∈ m := by
          rcases List.mem_cons.mp (hp'.mem_iff.mpr (List.mem_cons_self)) with h | h
          · exact absurd h.symm hne
          · exact h
        exact g1 e he (h1 x hx)
      subst hx
      have hp'' := (List.perm_cons _).mp hp'
      rw [ih hp'' (fun y hy => hn y (by simp [hy])) h2 m g2 hp'']

/-! ### The program -/

variable {T : Nat}

theorem io_cmds {z : Zlib} {file : Bytes} {bs : List FileBlock} (hb : HasBlocks z file bs) {fuel : Nat} {ds : List BlobDesc}
    (h : takeBlobs file fuel {} = (ds, .done)) :
    ds.mapM (iterationCalls z file) = some (bs.map callsFor) ∧ ds.map (iterationCalls z file) = (bs.map callsFor).map some := by
  obtain ⟨fuel', hb⟩ := hb
  obtain ⟨ds', h1', h2', -⟩ := commands_of_blocks fuel' {} bs hb
  obtain rfl := takeBlobs_mono fuel fuel' {} ds ds' h h1'
  refine ⟨h2', ?_⟩
  clear h h1' hb
  generalize bs.map callsFor = cs at h2'
  induction ds generalizing cs with
  | nil => simp at h2'; subst h2'; rfl
  | cons d ds ih =>
    rw [List.mapM_cons] at h2'
    cases h1 : iterationCalls z file d with
    | none => simp [h1] at h2'
    | some c =>
      cases h2 : ds.mapM (iterationCalls z file) with
      | none => simp [h1, h2] at h2'
      | some cs' =>
        simp [h1, h2] at h2'
        subst h2'
        simp [h1, ih cs' h2]

theorem io_inv {g : ParSystem.Config} {file : Bytes} {readCap : Nat} {keep : Element → Bool} {ds : List BlobDesc} {s : ParallelIo T} {bs : List FileBlock}
    (hb : HasBlocks g.z file bs) (hs : ParallelIoOccurs g file readCap keep ds s) :
    ParallelIo.Inv g readCap keep ((bs.map callsFor).map some) s := by
  obtain ⟨fuel, s, h, hs⟩ := hs
  rw [(io_cmds hb h).2] at hs
  exact ParallelIo.steps_inv hs

theorem reader_batches {z : Zlib} {file : Bytes} {bs : List FileBlock} (hb : HasBlocks z file bs) {keep : Element → Bool} {readCap : Nat}
    {r : ForEach T (TlState T)} (h : ForEach.Steps (ParallelIo.closure keep) readCap (ForEach.init ((bs.map callsFor).map some) ⟨fun _ => [], []⟩) r)
    (hr : r.returned = true) : r.shared.batches.flatten.Perm ((bs.flatMap elementsOf).filter keep) := by
  have hi := ForEach.steps_inv (ForEach.init_inv _ _) h
  obtain ⟨h1, h2, h3⟩ := hi.joined hr
  have hp := ForEach.steps_toPool (act := tlAct keep) h
  obtain ⟨fuel, hb'⟩ := hb
  obtain ⟨ds, h1', h2', -⟩ := commands_of_blocks fuel {} bs hb'
  exact (C28_accumulator_loses_nothing z file bs ⟨fuel, hb'⟩ T keep (ForEach.toPool r)
    (.run fuel ds _ _ h1' h2' hp ⟨by simp [ForEach.toPool, h1, h2], h3⟩)).2.1

theorem reader_finishes (hT : 0 < T) {readCap : Nat} (hc : 0 < readCap) {keep : Element → Bool} {cmds : List (List Element)}
    {r : ForEach T (TlState T)} (h : ForEach.Steps (ParallelIo.closure keep) readCap (ForEach.init (cmds.map some) ⟨fun _ => [], []⟩) r) :
    ∃ q, ForEach.Steps (ParallelIo.closure keep) readCap r q ∧ q.returned = true ∧ r.shared.batches <+: q.shared.batches := by
  induction hw : ForEach.work r using Nat.strong_induction_on generalizing r with
  | _ n ih =>
    cases hr : r.returned with
    | true => exact ⟨r, .refl, hr, List.prefix_refl _⟩
    | false =>
      obtain ⟨q, hq, -⟩ := ForEach.progress (f := ParallelIo.closure keep) hT hc (ForEach.steps_alive (fun _ _ _ => rfl) h) hr
      obtain ⟨u, h1, h2, h3⟩ := ih _ (hw ▸ ForEach.step_work hq) (h.tail hq) rfl
      refine ⟨u, .head hq h1, h2, List.IsPrefix.trans ?_ h3⟩
      rcases ParallelIo.step_batches hq with e | ⟨b, e⟩
      · rw [e]
      · rw [e]; exact List.prefix_append _ _

theorem submitted_batches (batches : List (List Element)) : submitted (callsOf (ParallelIo.opsOf batches)) = batches.flatten := by
  rw [ParallelIo.callsOf_opsOf]
  simp [submitted, List.flatMap_map, List.flatMap_id']

/-- C70. When the program `parallel-pbf-io` ends, however the threads of the reader and of the writer were scheduled and whatever the sizes: the new file consists of the
header and of blocks that together hold exactly the elements kept, each once; no block is empty, too large or of mixed type. -/
theorem C70_complete (g : ParSystem.Config) (hF : 0 < g.blockSize) (file : Bytes) (bs : List FileBlock) (hb : HasBlocks g.z file bs) (readCap : Nat)
    (keep : Element → Bool) (ds : List BlobDesc) (s : ParallelIo T) (hs : ParallelIoOccurs g file readCap keep ds s) (hc : Closed s.writer) :
    ∃ blocks : List (List Element), s.writer.file = some (blockBytes g.z g.c (.header g.info :: blocks.map .data)) ∧
      blocks.flatten.Perm ((bs.flatMap elementsOf).filter keep) ∧
      ∀ b ∈ blocks, 1 ≤ b.length ∧ b.length ≤ g.blockSize ∧ ∀ e ∈ b, ∀ f ∈ b, rank e = rank f := by
  have hi := io_inv hb hs
  have hr : s.reader.returned = true := by
    by_contra h
    have := hi.stage (by simpa using h)
    unfold Closed at hc
    omega
  obtain ⟨blocks, h1, h2⟩ := C68_close_complete g hF _ _ hi.writer hc
  refine ⟨blocks, h2, ?_, ?_⟩
  · have := C25_permutation _ _ _ _ _ h1
    rw [submitted_batches] at this
    exact this.trans (reader_batches hb hi.reader hr)
  · intro b hb
    obtain ⟨g1, g2, g3⟩ := C35_block_shape _ _ _ hF _ _ h1 b hb
    exact ⟨g1, g2, fun e he f hf => (sameType_rank e f).mp (g3 e he f hf)⟩

theorem io_small {g : ParSystem.Config} {file : Bytes} {bs : List FileBlock} (hb : HasBlocks g.z file bs) (hT : 0 < T) {readCap : Nat} (hcap : 0 < readCap)
    {keep : Element → Bool} {ds : List BlobDesc} {s : ParallelIo T} (hs : ParallelIoOccurs g file readCap keep ds s)
    (hl : ((bs.flatMap elementsOf).filter keep).length ≤ g.bufferSize) :
    Orderer.run g.S g.bufferSize g.blockSize {} (callsOf (ParallelIo.opsOf s.reader.shared.batches)) = .ok ⟨s.reader.shared.batches.flatten, none, []⟩ := by
  have hi := io_inv hb hs
  obtain ⟨q, h1, h2, t, h3⟩ := reader_finishes hT hcap hi.reader
  have hp := (reader_batches hb (hi.reader.trans h1) h2).length_eq
  rw [← h3] at hp
  simp only [List.flatten_append, List.length_append] at hp
  have := run_small g.S g.bufferSize g.blockSize (callsOf (ParallelIo.opsOf s.reader.shared.batches)) {} rfl (by
    rw [submitted_batches]
    simp only [List.length_nil]
    omega)
  rw [this, submitted_batches]
  rfl

/-- C70. If the ordering buffer has room for all elements kept and these are strictly ascending in the file (as in a published planet file), then no thread ever panics and, when the
program ends, the blocks of the new file hold the elements in the same order, as many in each block as possible. -/
theorem C70_exact (g : ParSystem.Config) (hF : 0 < g.blockSize) (file : Bytes) (bs : List FileBlock) (hb : HasBlocks g.z file bs) (hT : 0 < T) (readCap : Nat)
    (hcap : 0 < readCap) (keep : Element → Bool) (kept : List Element) (hk : kept = (bs.flatMap elementsOf).filter keep) (ha : Ascending kept)
    (hl : kept.length ≤ g.bufferSize) (ds : List BlobDesc) (s : ParallelIo T) (hs : ParallelIoOccurs g file readCap keep ds s) :
    ¬ Panicked s.writer ∧
    (Closed s.writer → ∃ blocks : List (List Element), s.writer.file = some (blockBytes g.z g.c (.header g.info :: blocks.map .data)) ∧ blocks.flatten = kept ∧
      AsFull g.blockSize blocks) := by
  have hi := io_inv hb hs
  have hrun := io_small hb hT hcap hs (by rw [← hk]; exact hl)
  refine ⟨by simp [Panicked, ParSystem.never_failed hrun hi.writer], fun hc => ?_⟩
  have hr : s.reader.returned = true := by
    by_contra h
    have := hi.stage (by simpa using h)
    unfold Closed at hc
    omega
  have hn : NoSentinel kept := by
    intro e he hse
    subst hk
    obtain ⟨b, hb', he⟩ := List.mem_flatMap.mp (List.mem_of_mem_filter he)
    have := hasBlocks_real hb b hb' e he
    simp [hse, Element.isSentinel] at this
  obtain ⟨blocks, ⟨o, o', h1, h2, rfl⟩, h3⟩ := C68_close_complete g hF _ _ hi.writer hc
  rw [hrun] at h1
  cases h1
  obtain ⟨new, e1, e2, e3⟩ := flushLoop_full hF h2
  simp only [List.nil_append] at e1
  subst e1
  refine ⟨_, h3, ?_, e2⟩
  rw [e3]
  exact sort_ascending g.S (hk ▸ reader_batches hb hi.reader hr) hn ha

/-- C70. Then the new file is the same, byte for byte, for every schedule. -/
theorem C70_same_file (g : ParSystem.Config) (hF : 0 < g.blockSize) (file : Bytes) (bs : List FileBlock) (hb : HasBlocks g.z file bs) {T' : Nat} (hT : 0 < T)
    (hT' : 0 < T') (readCap readCap' : Nat)
    (hcap : 0 < readCap) (hcap' : 0 < readCap') (keep : Element → Bool) (kept : List Element) (hk : kept = (bs.flatMap elementsOf).filter keep) (ha : Ascending kept)
    (hl : kept.length ≤ g.bufferSize) (ds ds' : List BlobDesc) (s : ParallelIo T) (s' : ParallelIo T') (hs : ParallelIoOccurs g file readCap keep ds s)
    (hs' : ParallelIoOccurs g file readCap' keep ds' s') (hc : Closed s.writer) (hc' : Closed s'.writer) : s.writer.file = s'.writer.file := by
  obtain ⟨b, h1, h2, h3⟩ := (C70_exact g hF file bs hb hT readCap hcap keep kept hk ha hl ds s hs).2 hc
  obtain ⟨b', h1', h2', h3'⟩ := (C70_exact g hF file bs hb hT' readCap' hcap' keep kept hk ha hl ds' s' hs').2 hc'
  rw [h1, h1', asFull_unique h3 h3' (h2.trans h2'.symm)]

/-- C70. And a reader of the new file gets exactly the elements kept, in the order of the old file, if they can be stored exactly and blocks fit the format. -/
theorem C70_reads_back (g : ParSystem.Config) (hz : g.z.Lossless) (hF : 0 < g.blockSize) (file : Bytes) (bs : List FileBlock) (hb : HasBlocks g.z file bs)
    (hT : 0 < T) (readCap : Nat) (hcap : 0 < readCap) (keep : Element → Bool) (kept : List Element) (hk : kept = (bs.flatMap elementsOf).filter keep)
    (ha : Ascending kept) (hl : kept.length ≤ g.bufferSize) (hx : ∀ e ∈ kept, Exact e) (hn : ¬ EmptyInfo g.info) (hh : HeaderFits g.z g.c g.info)
    (hfit : ∀ run, run <:+: kept → run.length ≤ g.blockSize → Fits g.z g.c run)
    (ds : List BlobDesc) (s : ParallelIo T) (hs : ParallelIoOccurs g file readCap keep ds s) (hc : Closed s.writer) :
    ∃ out, s.writer.file = some out ∧ ∀ es r, ReadsElements g.z out es r ↔ es = kept ∧ r = .done := by
  obtain ⟨blocks, h1, h2, h3⟩ := (C70_exact g hF file bs hb hT readCap hcap keep kept hk ha hl ds s hs).2 hc
  refine ⟨_, h1, fun es r => ?_⟩
  have hreal : ∀ b ∈ blocks, ∀ e ∈ b, e ≠ .sentinel := by
    intro b hb' e he hse
    have he : e ∈ kept := h2 ▸ List.mem_flatten.mpr ⟨b, hb', he⟩
    rw [hk] at he
    obtain ⟨b, hb', he⟩ := List.mem_flatMap.mp (List.mem_of_mem_filter he)
    have := hasBlocks_real hb b hb' e he
    simp [hse, Element.isSentinel] at this
  rw [reads_written_blocks hz hn hh
    (fun b hb => homogeneous_of_oneType (fun e he f hf => (sameType_rank e f).mpr ((h3.1 b hb).2.2 e he f hf)) (hreal b hb))
    (fun b hb => hfit b (h2 ▸ infix_of_mem_flatten hb) (h3.1 b hb).2.1), h2, map_quant_exact hx]

/-- C70. While the program has not ended and no thread has panicked, some thread can go on: the reader waiting for the full queue of the writer and the bounded queues of both never
block each other for ever. -/
theorem C70_no_deadlock (g : ParSystem.Config) (hF : 0 < g.blockSize) (hq : 0 < g.cap) (ht : 0 < g.threads) (file : Bytes) (bs : List FileBlock)
    (hb : HasBlocks g.z file bs) (hT : 0 < T) (readCap : Nat) (hcap : 0 < readCap) (keep : Element → Bool) (ds : List BlobDesc) (s : ParallelIo T)
    (hs : ParallelIoOccurs g file readCap keep ds s) :
    ∃ t, ParallelIo.Steps g readCap keep s t ∧ ParallelIoOccurs g file readCap keep ds t ∧ (Closed t.writer ∨ Panicked t.writer) := by
  have hwf : WellFounded (fun a b : Nat ×ₗ Nat => a < b) := wellFounded_lt
  induction hm : ParallelIo.measure s using hwf.induction generalizing s with
  | _ m ih =>
    by_cases hc : Closed s.writer
    · exact ⟨s, .refl, hs, .inl hc⟩
    by_cases hp : Panicked s.writer
    · exact ⟨s, .refl, hs, .inr hp⟩
    have hi := io_inv hb hs
    obtain ⟨t, hst⟩ := ParallelIo.progress hT hcap hF hq ht hi (by simpa [Panicked] using hp) hc
    have hs' : ParallelIoOccurs g file readCap keep ds t := by
      obtain ⟨fuel, s, h, hs⟩ := hs
      exact ⟨fuel, t, h, hs.tail hst⟩
    obtain ⟨u, h1, h2, h3⟩ := ih _ (hm ▸ ParallelIo.step_measure hF hi hst) t hs' rfl
    exact ⟨u, .head hst h1, h2, h3⟩

/-- C70. No schedule goes on for ever. -/
theorem C70_schedules_end (g : ParSystem.Config) (hF : 0 < g.blockSize) (readCap : Nat) (keep : Element → Bool) (cmds : List (Option (List Element))) :
    ¬ ∃ f : Nat → ParallelIo T, f 0 = ParallelIo.init cmds ∧ ∀ n, ParallelIo.Step g readCap keep (f n) (f (n + 1)) := by
  rintro ⟨f, h0, hf⟩
  have hocc : ∀ n, ParallelIo.Steps g readCap keep (ParallelIo.init cmds) (f n) := by
    intro n
    induction n with
    | zero => rw [h0]
    | succ n ih => exact ih.tail (hf n)
  have hwf : WellFounded (fun a b : Nat ×ₗ Nat => a < b) := wellFounded_lt
  have key : ∀ m n, ParallelIo.measure (f n) = m → False := by
    intro m
    induction m using hwf.induction with
    | _ m ih =>
      intro n hn
      exact ih _ (hn ▸ ParallelIo.step_measure hF (ParallelIo.steps_inv (hocc n)) (hf n)) (n + 1) rfl
  exact key _ 0 rfl

/-! ### A buffer that is too small -/

namespace ParallelIo

/-- What matters of a state of the program before anything is taken out of the queues. -/
structure Loaded (s : ParallelIo T) (queue : List (Nat × Option (List Element))) (batches : List (List Element)) : Prop where
  idle : ∀ i, s.reader.running i = none
  alive : ∀ i, s.reader.dead i = false
  acc : ∀ i, s.reader.shared.acc i = []
  handed : s.reader.shared.batches = batches
  queue : s.reader.queue = queue
  left : s.reader.left = []
  returned : s.reader.returned = false
  ops : s.writer.ops = []
  ok : s.writer.failed = false
  waiting : s.writer.orderQueue.length = batches.length

/-- A thread executes a command with a single element. -/
theorem runs_one {g : ParSystem.Config} {readCap : Nat} {keep : Element → Bool} (hT : 0 < T) {s : ParallelIo T} {l r : List (Nat × Option (List Element))}
    {k : Nat} {e : Element} (he : e ≠ .sentinel) (hk : keep e = true) {batches : List (List Element)}
    (h : Loaded s (l ++ (k, some [e, .sentinel]) :: r) batches) (hroom : batches.length < g.cap) :
    ∃ t, Steps g readCap keep s t ∧ Loaded t (l ++ r) (batches ++ [[e]]) := by
  let i : Fin T := ⟨0, hT⟩
  have htl : ∀ s : TlState T, tlAct keep i e s = s.add i e := by
    intro s
    cases e <;> simp_all [tlAct]
  have s1 := Step.read (g := g) (readCap := readCap) (keep := keep) s _ h.ops (.take s.reader i l r k _ h.queue (h.idle i) (h.alive i)) rfl
  refine ⟨_, .head s1 (.head (.read _ _ h.ops (.call _ i k e [.sentinel] (by simp) rfl) ?_) (.head (.handOver _ _ [e] h.ops (.call _ i k .sentinel [] (by simp) rfl) ?_ h.ok ?_)
    (.single (.read _ _ h.ops (.finish _ i k (by simp)) rfl)))), ?_⟩
  · simp [closure, htl, TlState.add]
  · simp [closure, htl, tlAct, TlState.add, TlState.elements, h.acc, hk]
  · simpa [h.waiting] using hroom
  · refine ⟨?_, h.alive, ?_, ?_, rfl, h.left, h.returned, h.ops, h.ok, ?_⟩
    · intro j
      by_cases hj : j = i
      · subst hj; simp
      · simp [hj, h.idle]
    · intro j
      by_cases hj : j = i
      · subst hj; simp [closure, tlAct, TlState.elements]
      · simp [closure, htl, tlAct, TlState.add, TlState.elements, hj, h.acc, hk]
    · simp [closure, htl, tlAct, TlState.add, TlState.elements, h.acc, h.handed, hk]
    · simp [h.waiting]

/-- A thread executes the command of a header. -/
theorem runs_none {g : ParSystem.Config} {readCap : Nat} {keep : Element → Bool} (hT : 0 < T) {s : ParallelIo T} {l r : List (Nat × Option (List Element))}
    {k : Nat} {batches : List (List Element)} (h : Loaded s (l ++ (k, some []) :: r) batches) :
    ∃ t, Steps g readCap keep s t ∧ Loaded t (l ++ r) batches := by
  let i : Fin T := ⟨0, hT⟩
  have s1 := Step.read (g := g) (readCap := readCap) (keep := keep) s _ h.ops (.take s.reader i l r k _ h.queue (h.idle i) (h.alive i)) rfl
  refine ⟨_, .head s1 (.single (.read _ _ h.ops (.finish _ i k (by simp)) rfl)), ?_⟩
  refine ⟨?_, h.alive, h.acc, h.handed, rfl, h.left, h.returned, h.ops, h.ok, h.waiting⟩
  intro j
  by_cases hj : j = i
  · subst hj; simp
  · simp [hj, h.idle]

/-- The main thread submits all commands. -/
theorem runs_load {g : ParSystem.Config} (hq : 0 < g.cap) {readCap : Nat} {keep : Element → Bool} (a b c d : List Element) (hr : 4 ≤ readCap) :
    ∃ t : ParallelIo T, Steps g readCap keep (init [some a, some b, some c, some d]) t ∧
      Loaded t [(0, some a), (1, some b), (2, some c), (3, some d)] [] := by
  have s0 := Step.writer (T := T) (g := g) (readCap := readCap) (keep := keep) (init [some a, some b, some c, some d]) _
    (.header (ParSystem.init [.header]) [] rfl rfl rfl hq) (.inl rfl)
  refine ⟨_, .head s0 (.head (.read _ _ rfl (.submit _ (some a) [some b, some c, some d] rfl ?_) rfl)
    (.head (.read _ _ rfl (.submit _ (some b) [some c, some d] rfl ?_) rfl)
    (.head (.read _ _ rfl (.submit _ (some c) [some d] rfl ?_) rfl) (.single (.read _ _ rfl (.submit _ (some d) [] rfl ?_) rfl))))), ?_⟩
  · simp [init, ForEach.init]; omega
  · simp [init, ForEach.init]; omega
  · simp [init, ForEach.init]; omega
  · simp [init, ForEach.init]; omega
  · exact ⟨fun _ => rfl, fun _ => rfl, fun _ => rfl, rfl, rfl, rfl, rfl, rfl, rfl, rfl⟩

/-- `parallel_for_each` returns. -/
theorem runs_join {g : ParSystem.Config} {readCap : Nat} {keep : Element → Bool} {s : ParallelIo T} {batches : List (List Element)} (h : Loaded s [] batches) :
    ∃ t, Steps g readCap keep s t ∧ t.reader.returned = true ∧ t.reader.shared.batches = batches := by
  have s1 := Step.read (g := g) (readCap := readCap) (keep := keep) s _ h.ops (.join s.reader h.returned h.left h.queue h.idle) rfl
  exact ⟨_, .single s1, rfl, h.handed⟩

theorem returned_stays {g : ParSystem.Config} {readCap : Nat} {keep : Element → Bool} {cmds : List (Option (List Element))} {s t : ParallelIo T}
    (hi : Inv g readCap keep cmds s) (hr : s.reader.returned = true) (hs : Steps g readCap keep s t) : t.reader = s.reader := by
  have : ∀ u, Steps g readCap keep s u → u.reader = s.reader ∧ ForEach.Steps (closure keep) readCap (ForEach.init cmds ⟨fun _ => [], []⟩) u.reader := by
    intro u hu
    induction hu with
    | refl => exact ⟨rfl, hi.reader⟩
    | tail _ hst ih =>
      cases hst with
      | writer w h hc => exact ih
      | read r ho h hb => exact absurd h (ForEach.no_step_returned (ForEach.steps_inv (ForEach.init_inv _ _) ih.2) (by rw [ih.1]; exact hr))
      | handOver r bt ho h hb hf hq => exact absurd h (ForEach.no_step_returned (ForEach.steps_inv (ForEach.init_inv _ _) ih.2) (by rw [ih.1]; exact hr))
  exact (this t hs).1

end ParallelIo

/-- C70 (the code as it is). With a buffer smaller than the number of elements the outcome depends on the schedule: for one and the same sorted file with three nodes there is a
schedule in which the program ends and one in which the writer panics. -/
theorem C70_schedule_matters (g : ParSystem.Config) (hS : g.S = mergeSortStd) (hB : g.bufferSize = 1) (hF : g.blockSize = 1) (hq : 3 ≤ g.cap) (ht : 0 < g.threads)
    (info : FileInfo) (file : Bytes) (hb : HasBlocks g.z file [.header info, .data [nodeN 1], .data [nodeN 2], .data [nodeN 3]]) (hT : 0 < T) (readCap : Nat)
    (hcap : 4 ≤ readCap) :
    ∃ ds, ∃ s t : ParallelIo T, ParallelIoOccurs g file readCap (fun _ => true) ds s ∧ Closed s.writer ∧
      ParallelIoOccurs g file readCap (fun _ => true) ds t ∧ Panicked t.writer := by
  obtain ⟨fuel, hb'⟩ := id hb
  obtain ⟨ds, h1, -, -⟩ := commands_of_blocks fuel {} _ hb'
  have hcmds := (io_cmds hb h1).2
  obtain ⟨a, ha, hla⟩ := ParallelIo.runs_load (T := T) (g := g) (by omega) (readCap := readCap) (keep := fun _ => true) [] [nodeN 1, .sentinel] [nodeN 2, .sentinel]
    [nodeN 3, .sentinel] hcap
  obtain ⟨b, hab, hlb⟩ := ParallelIo.runs_none (g := g) (readCap := readCap) (keep := fun _ => true) hT (l := []) hla
  have occurs : ∀ s, ParallelIo.Steps g readCap (fun _ => true) b s → ParallelIoOccurs g file readCap (fun _ => true) ds s := by
    intro s hs
    refine .run fuel s h1 ?_
    rw [hcmds]
    exact (ha.trans hab).trans hs
  have finish : ∀ s : ParallelIo T, ParallelIo.Steps g readCap (fun _ => true) b s → ∃ t, ParallelIoOccurs g file readCap (fun _ => true) ds t ∧
      (Closed t.writer ∨ Panicked t.writer) ∧ (s.reader.returned = true → t.reader = s.reader) := by
    intro s hs
    obtain ⟨t, h1, h2, h3⟩ := C70_no_deadlock g (by omega) (by omega) ht file _ hb hT readCap (by omega) (fun _ => true) ds s (occurs s hs)
    exact ⟨t, h2, h3, fun hr => ParallelIo.returned_stays (io_inv hb (occurs s hs)) hr h1⟩
  have hs12 : [nodeN 1, nodeN 2].mergeSort Element.le = [nodeN 1, nodeN 2] := by
    have h : (nodeN 1).le (nodeN 2) = true := by decide
    simp [List.mergeSort, List.MergeSort.Internal.splitInTwo, List.splitAt, List.splitAt.go, List.merge, h]
  have hs23 : [nodeN 2, nodeN 3].mergeSort Element.le = [nodeN 2, nodeN 3] := by
    have h : (nodeN 2).le (nodeN 3) = true := by decide
    simp [List.mergeSort, List.MergeSort.Internal.splitInTwo, List.splitAt, List.splitAt.go, List.merge, h]
  have hs32 : [nodeN 3, nodeN 2].mergeSort Element.le = [nodeN 2, nodeN 3] := by
    have h : (nodeN 3).le (nodeN 2) = false := by decide
    simp [List.mergeSort, List.MergeSort.Internal.splitInTwo, List.splitAt, List.splitAt.go, List.merge, h]
  -- in the order of the file
  obtain ⟨s1, p1, l1⟩ := ParallelIo.runs_one (g := g) (readCap := readCap) (keep := fun _ => true) hT (l := []) (e := nodeN 1) (by decide) rfl hlb (by simp; omega)
  obtain ⟨s2, p2, l2⟩ := ParallelIo.runs_one (g := g) (readCap := readCap) (keep := fun _ => true) hT (l := []) (e := nodeN 2) (by decide) rfl l1 (by simp; omega)
  obtain ⟨s3, p3, l3⟩ := ParallelIo.runs_one (g := g) (readCap := readCap) (keep := fun _ => true) hT (l := []) (e := nodeN 3) (by decide) rfl l2 (by simp; omega)
  obtain ⟨s4, p4, r4, b4⟩ := ParallelIo.runs_join (g := g) (readCap := readCap) (keep := fun _ => true) l3
  obtain ⟨s, o1, e1, f1⟩ := finish s4 (((p1.trans p2).trans p3).trans p4)
  -- in the opposite order
  obtain ⟨t1, q1, m1⟩ := ParallelIo.runs_one (g := g) (readCap := readCap) (keep := fun _ => true) hT (l := [_, _]) (e := nodeN 3) (by decide) rfl hlb (by simp; omega)
  obtain ⟨t2, q2, m2⟩ := ParallelIo.runs_one (g := g) (readCap := readCap) (keep := fun _ => true) hT (l := [_]) (e := nodeN 2) (by decide) rfl m1 (by simp; omega)
  obtain ⟨t3, q3, m3⟩ := ParallelIo.runs_one (g := g) (readCap := readCap) (keep := fun _ => true) hT (l := []) (e := nodeN 1) (by decide) rfl m2 (by simp; omega)
  obtain ⟨t4, q4, r4', b4'⟩ := ParallelIo.runs_join (g := g) (readCap := readCap) (keep := fun _ => true) m3
  obtain ⟨t, o2, e2, f2⟩ := finish t4 (((q1.trans q2).trans q3).trans q4)
  refine ⟨ds, s, t, o1, ?_, o2, ?_⟩
  · refine e1.resolve_right fun hp => ?_
    have hw := (io_inv hb o1).writer
    rw [f1 r4, b4] at hw
    have hrun : Orderer.run g.S g.bufferSize g.blockSize {} (callsOf (ParallelIo.opsOf ([] ++ [[nodeN 1]] ++ [[nodeN 2]] ++ [[nodeN 3]]))) =
        .ok ⟨[nodeN 3], some (nodeN 2), [[nodeN 1], [nodeN 2]]⟩ := by
      rw [hS, hB, hF]
      simp [ParallelIo.opsOf, callsOf, Orderer.run, Orderer.exec, Orderer.push, Orderer.assertOrder, Orderer.checkFull, Orderer.flushTop, mergeSortStd, hs12,
        Orderer.emit, splitFileBlock, splitGo]
      have hc : (nodeN 3).cmp (nodeN 1) ≠ .lt := by decide
      have hc' : (nodeN 2).cmp (nodeN 3) ≠ .gt := by decide
      simp [hc, hs23, splitGo]
    have := ParSystem.never_failed hrun hw
    simp [Panicked, this] at hp
  · refine e2.resolve_left fun hp => ?_
    have hw := (io_inv hb o2).writer
    rw [f2 r4', b4'] at hw
    refine (C68_lost_order g (by omega) (by omega) ht _ ?_ _ hw).1 hp
    rw [hS, hB, hF]
    simp [ParallelIo.opsOf, callsOf, Orderer.run, Orderer.exec, Orderer.push, Orderer.assertOrder, Orderer.checkFull, Orderer.flushTop, mergeSortStd, hs32,
      Orderer.emit, splitFileBlock, splitGo]
    decide +kernel

/-! ### A concrete file -/

/-- A file with three nodes, each in a block of its own. -/
def exThree : Bytes := blockBytes exZ .zlib (.header exInfo :: [[nodeN 1], [nodeN 2], [nodeN 3]].map .data)

theorem nodeN_exact (i : Int64) : Exact (nodeN i) := exNode_exact

theorem exThree_blocks : HasBlocks exZ exThree
    [.header (fromHeaderBlock (toHeaderBlock exInfo)), .data [nodeN 1], .data [nodeN 2], .data [nodeN 3]] := by
  have h := hasBlocks_written (c := .zlib) (blocks := [[nodeN 1], [nodeN 2], [nodeN 3]]) exZ_lossless exInfo_nonempty exInfo_fits
    (by intro b hb; simp at hb; rcases hb with rfl | rfl | rfl <;> simp [Homogeneous, nodeN, Element.sameType]) (by unfold Fits; decide +kernel)
  have hq : ∀ i, [nodeN i].map Element.quant = [nodeN i] := fun i => map_quant_exact (by simpa using nodeN_exact i)
  simp only [List.map_cons, List.map_nil, hq] at h
  exact h

/-- A parallel writer with a buffer for `B` elements, blocks of `F`, queues of length 3 and two encoding threads. -/
def exWriterOf (B F : Nat) : ParSystem.Config := ⟨exZ, mergeSortStd, exInfo, .zlib, B, F, 3, 2⟩

/-- The hypotheses of `C70_schedule_matters` are met. -/
example : ∃ ds, ∃ s t : ParallelIo 2, ParallelIoOccurs (exWriterOf 1 1) exThree 4 (fun _ => true) ds s ∧ Closed s.writer ∧
    ParallelIoOccurs (exWriterOf 1 1) exThree 4 (fun _ => true) ds t ∧ Panicked t.writer :=
  C70_schedule_matters (exWriterOf 1 1) rfl rfl rfl (Nat.le_refl 3) Nat.two_pos _ exThree exThree_blocks Nat.two_pos 4 (Nat.le_refl 4)

/-- Those of `C70_complete`, `C70_exact` and `C70_reads_back` with a buffer for three elements and blocks of two, and the expected blocks. -/
example : ∃ ds, ∃ s : ParallelIo 2, ParallelIoOccurs (exWriterOf 3 2) exThree 1 (fun _ => true) ds s ∧ Closed s.writer ∧
    s.writer.file = some (blockBytes exZ .zlib [.header exInfo, .data [nodeN 1, nodeN 2], .data [nodeN 3]]) := by
  obtain ⟨fuel, hb'⟩ := id exThree_blocks
  obtain ⟨ds, h1, -, -⟩ := commands_of_blocks fuel {} _ hb'
  have hinit : ParallelIoOccurs (T := 2) (exWriterOf 3 2) exThree 1 (fun _ => true) ds (ParallelIo.init _) := .run fuel _ h1 .refl
  obtain ⟨s, -, hs, hc⟩ := C70_no_deadlock (exWriterOf 3 2) Nat.two_pos (Nat.succ_pos 2) Nat.two_pos exThree _ exThree_blocks Nat.two_pos 1 Nat.one_pos _ ds _ hinit
  obtain ⟨h2, h3⟩ := C70_exact (exWriterOf 3 2) Nat.two_pos exThree _ exThree_blocks Nat.two_pos 1 Nat.one_pos (fun _ => true) [nodeN 1, nodeN 2, nodeN 3] rfl
    (by unfold Ascending; decide) (Nat.le_refl 3) ds s hs
  have hc := hc.resolve_right h2
  obtain ⟨blocks, h4, h5, h6⟩ := h3 hc
  refine ⟨ds, s, hs, hc, ?_⟩
  have hfull : AsFull 2 [[nodeN 1, nodeN 2], [nodeN 3]] := by
    unfold AsFull
    decide
  rw [h4, asFull_unique h6 hfull h5]
  rfl

example : ∀ run, run <:+: [nodeN 1, nodeN 2, nodeN 3] → run.length ≤ 2 → Fits exZ .zlib run := by
  have h : ∀ run ∈ [nodeN 1, nodeN 2, nodeN 3].sublists, Fits exZ .zlib run := by
    unfold Fits
    decide +kernel
  exact fun run hr _ => h run (List.mem_sublists.mpr hr.sublist)

end OsmIo
