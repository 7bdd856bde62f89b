import Verif.Props.Concat
import Verif.Props.Header
import Verif.Spec.ChangingFile
/-!
# C98: reading a file that changes meanwhile
-/
set_option linter.unusedSimpArgs false
set_option linter.unusedVariables false
set_option linter.flexible false
namespace OsmIo
open Wire Spec Spec.Protobuf

theorem readAt_mono {f g : Bytes} (h : f <+: g) {p n : Nat} {b : Bytes} (hr : readAt f p n = some b) : readAt g p n = some b := by
  obtain ⟨t, rfl⟩ := h
  have hl := readAt_some hr
  unfold readAt at hr ⊢
  rw [if_neg (by omega)] at hr
  rw [if_neg (by simp; omega)]
  rw [← hr, List.drop_append_of_le_length (by omega), List.take_append_of_le_length (by simp; omega)]

theorem nextSeen_mono {s t : Sight} (h1 : s.length <+: t.length) (h2 : s.header <+: t.header) {it : BlobIter} {r : BlobDesc × BlobIter}
    (h : it.nextSeen s = .ok (some r)) : it.nextSeen t = .ok (some r) := by
  unfold BlobIter.nextSeen at h ⊢
  simp only at h ⊢
  split at h
  · simp at h
  · rename_i hp
    rw [if_neg hp]
    split at h
    · rename_i a b c d hr
      rw [readAt_mono h1 hr]
      simp only
      split at h
      · simp at h
      · rename_i hneg
        rw [if_neg hneg]
        split at h
        · simp at h
        · rename_i hdr hr2
          rw [readAt_mono h2 hr2]
          exact h
    · simp at h

theorem nextBlockSeen_mono {z : Zlib} {s t : Sight} (h1 : s.length <+: t.length) (h2 : s.header <+: t.header) (h3 : s.body <+: t.body) {it : BlobIter}
    {r : FileBlock × BlobIter} (h : nextBlockSeen z s it = .ok (some r)) : nextBlockSeen z t it = .ok (some r) := by
  unfold nextBlockSeen at h ⊢
  split at h
  · simp at h
  · rename_i d it' hn
    rw [nextSeen_mono h1 h2 hn]
    simp only
    split at h
    · rename_i b hb
      have : FileBlock.fromBlobDesc z t.body d = .ok b := by
        unfold FileBlock.fromBlobDesc at hb ⊢
        split at hb
        · simp at hb
        · rename_i hl
          rw [if_neg hl]
          split at hb
          · simp at hb
          · rename_i buf hr
            rw [readAt_mono h3 hr]
            exact hb
      rw [this]
      exact h
    · simp at h
  · simp at h

theorem nextBlockSeen_still (z : Zlib) (f : Bytes) (it : BlobIter) : nextBlockSeen z ⟨f, f, f⟩ it = nextBlock z f it := rfl

theorem between_last {first last : Bytes} {s : Sight} (h : Sight.Between first last s) {z : Zlib} {it : BlobIter} {r : FileBlock × BlobIter}
    (hn : nextBlockSeen z s it = .ok (some r)) : nextBlock z last it = .ok (some r) := by
  rw [← nextBlockSeen_still]
  exact nextBlockSeen_mono (h _ (by simp)).2 (h _ (by simp)).2 (h _ (by simp)).2 hn

theorem between_first {first last : Bytes} {s : Sight} (h : Sight.Between first last s) {z : Zlib} {it : BlobIter} {r : FileBlock × BlobIter}
    (hn : nextBlock z first it = .ok (some r)) : nextBlockSeen z s it = .ok (some r) := by
  rw [← nextBlockSeen_still] at hn
  exact nextBlockSeen_mono (h _ (by simp)).1 (h _ (by simp)).1 (h _ (by simp)).1 hn

/-- What is drained is the beginning of what is drained from the last content. -/
theorem drainSeen_prefix {z : Zlib} {first last : Bytes} (h : List Sight) (hb : ∀ s ∈ h, Sight.Between first last s) (it : BlobIter) (fuel : Nat)
    (he : (takeBlocks z last fuel it).2 ≠ .more) :
    (drainSeen z h it).1 <+: (stream (takeBlocks z last fuel it).1 (takeBlocks z last fuel it).2).1 := by
  induction h generalizing it fuel with
  | nil => exact List.nil_prefix
  | cons s h ih =>
    unfold drainSeen
    split
    · exact List.nil_prefix
    · exact List.nil_prefix
    · rename_i es it' hn
      obtain _ | fuel := fuel
      · exact absurd rfl he
      · have hl := between_last (hb s (by simp)) hn
        have e : takeBlocks z last (fuel + 1) it = (.data es :: (takeBlocks z last fuel it').1, (takeBlocks z last fuel it').2) := by
          rw [takeBlocks, hl]
        rw [e] at he ⊢
        simp only [stream]
        exact List.prefix_append_right_inj _ |>.2 (ih (fun s hs => hb s (by simp [hs])) it' fuel he)
    · exact List.nil_prefix

/-- C98. A file that is only appended to while it is read: whatever the reader sees of it at each moment is a beginning of what it will be (and contains the
beginning that was there when the reader was opened). The elements delivered by then are a beginning of those the finished file has, unchanged and in order,
whether the iteration ends, panics or goes on. -/
theorem C98_growing (z : Zlib) (opened last : Bytes) (info : FileInfo) (ho : openReader z opened = .ok info) (h : List Sight)
    (hb : ∀ s ∈ h, Sight.Between opened last s) (es : List Element) (r : End) (hr : ReadsElements z last es r) :
    (elementsSeen z h).1 <+: es := by
  have he : (takeBlocks z last (last.length + 1) {}).2 ≠ .more := takeBlocks_ends z last _ {} (by simp; omega)
  have hx := (reads_iff (z := z) (file := last) (fuel := last.length + 1) (bs := (takeBlocks z last (last.length + 1) {}).1)
    (e := (takeBlocks z last (last.length + 1) {}).2) rfl he es r).1 hr
  obtain _ | ⟨s, h⟩ := h
  · exact List.nil_prefix
  · rw [elementsSeen]
    split
    · exact List.nil_prefix
    · rename_i b it hn
      have hl := between_last (hb s (by simp)) hn
      have e : takeBlocks z last (last.length + 1) {} = (b :: (takeBlocks z last last.length it).1, (takeBlocks z last last.length it).2) := by
        rw [takeBlocks, hl]
      rw [e] at hx he
      simp only [streamAll] at hx
      have := drainSeen_prefix h (fun s hs => hb s (by simp [hs])) it last.length he
      rw [← hx] at this
      exact this
    · exact List.nil_prefix

/-- The model agrees with that of the other properties: if the file does not change, this is `elements()`. -/
theorem C98_still (z : Zlib) (file : Bytes) (n : Nat) (hn : file.length < n) (es : List Element) (r : End) :
    elementsSeen z (List.replicate n ⟨file, file, file⟩) = (es, r) ↔ ReadsElements z file es r := by
  have hd : ∀ (n : Nat) (it : BlobIter), (takeBlocks z file n it).2 ≠ .more →
      drainSeen z (List.replicate n ⟨file, file, file⟩) it = stream (takeBlocks z file n it).1 (takeBlocks z file n it).2 := by
    intro n
    induction n with
    | zero => intro it h; exact absurd rfl h
    | succ n ih =>
      intro it h
      rw [List.replicate_succ, drainSeen, nextBlockSeen_still]
      unfold takeBlocks at h ⊢
      cases hb : nextBlock z file it with
      | err => simp [stream]
      | panic => simp [stream]
      | ok x =>
        obtain _ | ⟨b, it'⟩ := x
        · simp [stream]
        · rw [hb] at h
          simp only at h
          cases b with
          | header i => simp [stream]
          | data es => simp only [stream]; rw [ih it' h]
  obtain _ | n := n
  · omega
  have he : (takeBlocks z file (n + 1) {}).2 ≠ .more := takeBlocks_ends z file _ {} (by simp; omega)
  have hx := reads_iff (z := z) (file := file) (fuel := n + 1) (bs := (takeBlocks z file (n + 1) {}).1) (e := (takeBlocks z file (n + 1) {}).2) rfl he es r
  rw [hx, eq_comm]
  clear hx
  have : elementsSeen z (List.replicate (n + 1) ⟨file, file, file⟩) = streamAll (takeBlocks z file (n + 1) {}).1 (takeBlocks z file (n + 1) {}).2 := by
    rw [List.replicate_succ, elementsSeen, nextBlockSeen_still]
    unfold takeBlocks at he ⊢
    cases hb : nextBlock z file {} with
    | err => simp [streamAll]
    | panic => simp [streamAll]
    | ok x =>
      obtain _ | ⟨b, it'⟩ := x
      · simp [streamAll]
      · rw [hb] at he
        simp only at he
        simp only [streamAll]
        rw [hd n it' he]
  rw [this]

/-! ## The reader stays behind the writer -/

theorem drainSeen_behind {z : Zlib} {inflates : Format.Inflates} (hz : Decodes z inflates) {blocks : List (List Element)} {frames : List Bytes}
    (hf : List.Forall₂ (Format.IsDataFrame inflates) blocks frames) {last : Bytes} (pre : Bytes) (hl : last = pre ++ frames.flatten) (it : BlobIter)
    (hp : it.pos + it.jump = pre.length) (h : List Sight) (hn : h.length = frames.length + 1)
    (hb : ∀ k s, h[k]? = some s → Sight.Between (pre ++ (frames.take (k + 1)).flatten) last s) :
    drainSeen z h it = (blocks.flatten, .done) := by
  induction hf generalizing pre it h with
  | nil =>
    obtain _ | ⟨s, h⟩ := h
    · simp at hn
    · have hs := hb 0 s rfl
      have e : ∀ c ∈ [s.length, s.header, s.body], c = last := by
        intro c hc
        obtain ⟨h1, h2⟩ := hs c hc
        have : pre ++ (([] : List Bytes).take (0 + 1)).flatten = last := by rw [hl]; rfl
        rw [this] at h1
        exact h2.eq_of_length_le h1.length_le
      have : s = ⟨last, last, last⟩ := by
        obtain ⟨a, b, c⟩ := s
        have h1 : a = last := e a (by simp)
        have h2 : b = last := e b (by simp)
        have h3 : c = last := e c (by simp)
        rw [h1, h2, h3]
      have hend := next_end (file := last) (it := it) (by rw [hp, hl]; simp)
      rw [drainSeen, this, nextBlockSeen_still]
      simp [nextBlock, hend]
  | @cons es b blocks frames hd _ ih =>
    obtain _ | ⟨s, h⟩ := h
    · simp at hn
    · obtain ⟨data, p, h1, h2, h3⟩ := hd
      have hs := hb 0 s rfl
      obtain ⟨it', hnx, hp'⟩ := nextBlock_published hz h1 (new_data_of h2 h3) (file := pre ++ (((b :: frames).take (0 + 1)).flatten)) (pre := pre) (post := [])
        (by simp) hp
      rw [drainSeen, between_first hs hnx]
      have := ih (pre ++ b) (by rw [hl]; simp) it' hp' h (by simpa using hn) (by
        intro k s hk
        have := hb (k + 1) s (by simpa using hk)
        simpa using this)
      simp only [this, List.flatten_cons]

/-- C98. If the reader stays behind the writer, that is, each block is complete in the file when it is read and the file is finished when the reader looks for
another block, everything is delivered. -/
theorem C98_behind (z : Zlib) (inflates : Format.Inflates) (hz : ∀ c d, inflates c d → z.stream c = d)
    (info : FileInfo) (blocks : List (List Element)) (head : Bytes) (frames : List Bytes) (hh : Format.IsHeaderFrame inflates info head)
    (hf : List.Forall₂ (Format.IsDataFrame inflates) blocks frames) (h : List Sight) (hn : h.length = frames.length + 2)
    (hb : ∀ k s, h[k]? = some s → Sight.Between (((head :: frames).take (k + 1)).flatten) (head ++ frames.flatten) s) :
    elementsSeen z h = (blocks.flatten, .done) := by
  obtain _ | ⟨s, h⟩ := h
  · simp at hn
  · have hs := hb 0 s rfl
    obtain ⟨it, hnx, hp⟩ := nextBlock_header hz hh []
    have hs' : Sight.Between (head ++ []) (head ++ frames.flatten) s := by simpa using hs
    rw [elementsSeen, between_first hs' hnx]
    exact drainSeen_behind hz hf head rfl it hp h (by simpa using hn) (by
      intro k s hk
      have := hb (k + 1) s (by simpa using hk)
      simpa using this)

/-- C98. A reader that has caught up with the writer ends as at the end of the file: whatever is appended later is not delivered, and the iteration ends well. -/
theorem C98_caught_up (z : Zlib) (inflates : Format.Inflates) (hz : ∀ c d, inflates c d → z.stream c = d)
    (info : FileInfo) (blocks : List (List Element)) (file : Bytes) (h : Format.IsFile inflates info blocks file) (later : List Sight) :
    elementsSeen z (List.replicate (blocks.length + 2) ⟨file, file, file⟩ ++ later) = (blocks.flatten, .done) := by
  obtain ⟨head, frames, rfl, hh, hf⟩ := h
  have hlen := hf.length_eq
  have key : ∀ (h : List Sight) (it : BlobIter) (es : List Element), drainSeen z h it = (es, .done) → drainSeen z (h ++ later) it = (es, .done) := by
    intro h
    induction h with
    | nil => intro it es h; simp [drainSeen] at h
    | cons s h ih =>
      intro it es hd
      rw [List.cons_append]
      unfold drainSeen at hd ⊢
      split at hd
      · exact hd
      · exact hd
      · rename_i xs it' _
        simp only [Prod.mk.injEq] at hd ⊢
        have := ih it' (drainSeen z h it').1 (by rw [← hd.2])
        rw [this]
        exact ⟨hd.1, rfl⟩
      · exact hd
  have hb : elementsSeen z (List.replicate (blocks.length + 2) ⟨head ++ frames.flatten, head ++ frames.flatten, head ++ frames.flatten⟩) = (blocks.flatten, .done) := by
    refine C98_behind z inflates hz info blocks head frames hh hf _ (by simp [hlen]) ?_
    intro k s hk
    rw [List.getElem?_replicate] at hk
    split at hk
    · simp only [Option.some.injEq] at hk
      subst hk
      intro c hc
      have hc' : c = head ++ frames.flatten := by simpa using hc
      subst hc'
      refine ⟨?_, List.prefix_rfl⟩
      have := (List.take_prefix (k + 1) (head :: frames))
      obtain ⟨t, ht⟩ := this
      refine ⟨t.flatten, ?_⟩
      rw [← List.flatten_append, ht, List.flatten_cons]
    · simp at hk
  rw [List.replicate_succ] at hb ⊢
  rw [List.cons_append]
  generalize (⟨head ++ frames.flatten, head ++ frames.flatten, head ++ frames.flatten⟩ : Sight) = s at hb ⊢
  generalize List.replicate (blocks.length + 1) s = h at hb ⊢
  rw [elementsSeen] at hb ⊢
  cases hx : nextBlockSeen z s {} with
  | err => rw [hx] at hb; exact hb
  | panic => rw [hx] at hb; exact hb
  | ok x =>
    rw [hx] at hb
    obtain _ | ⟨b, it⟩ := x
    · exact hb
    · exact key _ _ _ hb

/-! ## Parallel reading -/

theorem fromBlobDesc_mono {z : Zlib} {f g : Bytes} (h : f <+: g) {d : BlobDesc} {b : FileBlock} (hb : FileBlock.fromBlobDesc z f d = .ok b) :
    FileBlock.fromBlobDesc z g d = .ok b := by
  unfold FileBlock.fromBlobDesc at hb ⊢
  split at hb
  · simp at hb
  · rename_i hl
    rw [if_neg hl]
    split at hb
    · simp at hb
    · rename_i buf hr
      rw [readAt_mono h hr]
      exact hb

theorem blobsSeen_calls {z : Zlib} {first last : Bytes} (fuel : Nat) (it : BlobIter) (bs : List FileBlock)
    (ht : takeBlocks z last fuel it = (bs, .done)) (h : List Sight) (hb : ∀ s ∈ h, Sight.Between first last s) :
    ∃ left, (((takeBlobsSeen h it).map fun x => (iterationCalls z x.2 x.1).getD []).flatten ++ left).Perm (bs.map callsFor).flatten := by
  induction h generalizing it fuel bs with
  | nil => exact ⟨(bs.map callsFor).flatten, by simp [takeBlobsSeen]⟩
  | cons s h ih =>
    have hs := hb s (by simp)
    rw [takeBlobsSeen]
    cases hn : it.nextSeen s with
    | err => exact ⟨(bs.map callsFor).flatten, by simp⟩
    | panic => exact ⟨(bs.map callsFor).flatten, by simp⟩
    | ok x =>
      obtain _ | ⟨d, it'⟩ := x
      · exact ⟨(bs.map callsFor).flatten, by simp⟩
      · have hl : it.next last = .ok (some (d, it')) := nextSeen_mono (t := ⟨last, last, last⟩) (hs _ (by simp)).2 (hs _ (by simp)).2 hn
        obtain _ | fuel := fuel
        · simp [takeBlocks] at ht
        · rw [takeBlocks] at ht
          cases hf : FileBlock.fromBlobDesc z last d with
          | err => simp [nextBlock, hl, hf] at ht
          | panic => simp [nextBlock, hl, hf] at ht
          | ok b =>
            simp only [nextBlock, hl, hf] at ht
            simp only [Prod.mk.injEq] at ht
            obtain ⟨rfl, hd⟩ := ht
            obtain ⟨left, hleft⟩ := ih fuel it' (takeBlocks z last fuel it').1 (by rw [← hd]) (fun s hs => hb s (by simp [hs]))
            simp only [List.map_cons, List.flatten_cons]
            cases hi : iterationCalls z s.body d with
            | none =>
              refine ⟨callsFor b ++ left, ?_⟩
              simp only [Option.getD_none, List.nil_append]
              rw [← List.append_assoc]
              refine (List.Perm.append_right left List.perm_append_comm).trans ?_
              rw [List.append_assoc]
              exact hleft.append_left _
            | some calls =>
              have : calls = callsFor b := by
                unfold iterationCalls at hi
                split at hi
                · rename_i es hx
                  have := fromBlobDesc_mono (hs _ (by simp)).2 hx
                  rw [hf] at this
                  simp only [Out.ok.injEq] at this
                  subst this
                  simp only [Option.some.injEq] at hi
                  exact hi.symm
                · rename_i i hx
                  have := fromBlobDesc_mono (hs _ (by simp)).2 hx
                  rw [hf] at this
                  simp only [Out.ok.injEq] at this
                  subst this
                  simp only [Option.some.injEq] at hi
                  exact hi.symm
                · simp at hi
              refine ⟨left, ?_⟩
              rw [Option.getD_some, this, List.append_assoc]
              exact hleft.append_left _

/-- C98. `parallel_for_each` on a file that is only appended to meanwhile: for every number of threads and schedule, the function is called with elements of the
finished file only, with each at most as often as it is there (and with no more Sentinels than there are data blocks). -/
theorem C98_growing_parallel (z : Zlib) (opened last : Bytes) (info : FileInfo) (ho : openReader z opened = .ok info) (bs : List FileBlock)
    (hl : HasBlocks z last bs) (h : List Sight) (hb : ∀ s ∈ h, Sight.Between opened last s)
    (T : Nat) (σ : Type) (act : Fin T → Element → σ → σ) (s : σ) (p : Pool T Element σ) (hp : ForEachSeen z h act s p) :
    ∃ left, (p.log.map (·.2.2) ++ left).Perm (bs.flatMap elementsOf ++ List.replicate (bs.countP isData) .sentinel) := by
  obtain ⟨hs, hd⟩ := hp
  obtain ⟨fuel, ht⟩ := hl
  obtain ⟨left, hleft⟩ := blobsSeen_calls fuel {} bs ht h hb
  have := Pool.done_perm (Pool.steps_inv (Pool.init_inv act _ s) hs) hd
  refine ⟨left, (this.append_right left).trans (hleft.trans ?_)⟩
  clear hleft this hs hd ht hb
  induction bs with
  | nil => simp
  | cons b bs ih =>
    cases b with
    | header i => simpa [callsFor, elementsOf, isData] using ih
    | data es =>
      simp only [List.map_cons, List.flatten_cons, callsFor, List.flatMap_cons, elementsOf, List.countP_cons, isData]
      simp only [if_true, List.replicate_succ', List.append_assoc]
      refine List.Perm.append_left es ?_
      refine (List.Perm.append_left _ ih).trans ?_
      rw [← List.append_assoc (bs.flatMap elementsOf)]
      exact List.perm_append_comm

/-- Such runs exist. -/
theorem C98_parallel_runs (z : Zlib) (h : List Sight) (T : Nat) (hT : 0 < T) (σ : Type) (act : Fin T → Element → σ → σ) (s : σ) : ∃ p, ForEachSeen z h act s p := by
  obtain ⟨q, h1, h2⟩ := Pool.reaches_done (act := act) hT (Pool.init ((takeBlobsSeen h {}).map fun x => (iterationCalls z x.2 x.1).getD []) s)
  exact ⟨q, h1, h2⟩

/-! ## Copying a file onto itself -/

/-- C98. `pbf-io` with the same file as input and output: whatever elements the file had, if it can be opened, the program ends well and leaves the header only.
Every element is lost. -/
theorem C98_onto_itself (z : Zlib) (hz : z.Lossless) (keep : Element → Bool) (program : String) (c : CompressionType) (file : Bytes) (info : FileInfo)
    (ho : openReader z file = .ok info) (hh : HeaderFits z c { info with writingprogram := some program }) (r : Out Bytes) :
    PbfIoOnto z keep program c file r ↔
      r = .ok ((Writer.fromFileInfo { info with writingprogram := some program } c).writeHeader z).file := by
  have hne : ¬ EmptyInfo { info with writingprogram := some program } := by
    intro h
    unfold EmptyInfo at h
    simp at h
  obtain ⟨it, hn, hp⟩ : ∃ it, nextBlock z ((Writer.fromFileInfo { info with writingprogram := some program } c).writeHeader z).file {} =
      .ok (some (.header (fromHeaderBlock (toHeaderBlock { info with writingprogram := some program })), it)) ∧
      it.pos + it.jump = ((Writer.fromFileInfo { info with writingprogram := some program } c).writeHeader z).file.length := by
    obtain ⟨it, h, hp⟩ := nextBlock_frame hz (headerOk hne hh) (file := ((Writer.fromFileInfo { info with writingprogram := some program } c).writeHeader z).file)
      (pre := []) (post := []) (by simp [Writer.writeHeader, Writer.writeFileBlock, Writer.writeBlob, Writer.fromFileInfo]) (it := {}) (by simp)
    refine ⟨it, h, ?_⟩
    rw [hp]
    simp [Writer.writeHeader, Writer.writeFileBlock, Writer.writeBlob, Writer.fromFileInfo]
  have hclose : (((Writer.fromFileInfo { info with writingprogram := some program } c).writeHeader z).close z).file =
      ((Writer.fromFileInfo { info with writingprogram := some program } c).writeHeader z).file := by
    simp [Writer.close, Writer.writeHeader, Writer.writeFileBlock, Writer.writeBlob, Writer.fromFileInfo, Accumulator.take, Accumulator.new]
  unfold PbfIoOnto
  rw [ho]
  simp only
  generalize (Writer.fromFileInfo { info with writingprogram := some program } c).writeHeader z = w at hn hp hclose ⊢
  have hend := next_end (file := w.file) (it := it) (by rw [hp])
  have hnew : ElementIter.new z w.file = .ok ⟨it, none⟩ := by
    have hc : createElementIterator z w.file it = .ok ⟨it, none⟩ := by
      have : nextBlock z w.file it = .ok none := by simp [nextBlock, hend]
      rw [createElementIterator, this]
    rw [ElementIter.new, hn]
    exact hc
  rw [hnew]
  simp only
  constructor
  · intro h
    cases h with
    | done _ _ _ h => rw [hclose]
    | fail _ _ h => cases h
    | drop _ _ _ _ _ h => cases h
    | write _ _ _ _ _ _ h => cases h
    | refuse _ _ _ _ h => cases h
  · rintro rfl
    rw [← hclose]
    exact .done _ _ _ (.ended it)

/-- C98. What it leaves is a file that can be opened and has no elements. -/
theorem C98_onto_itself_empty (z : Zlib) (hz : z.Lossless) (keep : Element → Bool) (program : String) (c : CompressionType) (file out : Bytes) (info : FileInfo)
    (ho : openReader z file = .ok info) (hh : HeaderFits z c { info with writingprogram := some program }) (h : PbfIoOnto z keep program c file (.ok out)) :
    (∃ info', openReader z out = .ok info' ∧ info'.writingprogram = some program) ∧ ∀ es r, ReadsElements z out es r ↔ es = [] ∧ r = .done := by
  have h := (C98_onto_itself z hz keep program c file info ho hh _).1 h
  simp only [Out.ok.injEq] at h
  have hne : ¬ EmptyInfo { info with writingprogram := some program } := by
    intro h
    unfold EmptyInfo at h
    simp at h
  constructor
  · obtain ⟨info', h1, h2, _⟩ := C15_header_roundtrip z hz c { info with writingprogram := some program } [] hne hh ((C17_open_iff z file info).1 ho).2
    rw [List.append_nil, ← h] at h1
    exact ⟨info', h1, by rw [h2]⟩
  · intro es r
    have := takeBlocks_written hz (c := c) [.header { info with writingprogram := some program }] (by
      intro b hb
      simp only [List.mem_singleton] at hb
      subst hb
      exact headerOk hne hh) (file := out) [] (by rw [h]; simp [blockBytes, Writer.writeHeader, Writer.writeFileBlock, Writer.writeBlob, Writer.fromFileInfo]) {}
      (by simp) 2 (by simp)
    rw [reads_iff this (by simp)]
    simp [streamAll, stream]

/-! ## Replacing a file -/

/-- The metadata of the example. -/
def changingInfo : FileInfo := ⟨none, ["OsmSchema-V0.6", "DenseNodes"], [], some "test", none, none, none, none⟩

/-- A node with this id. -/
def changingNode (id : Int64) : Element := .node ⟨id, 1, ⟨0, 0⟩, 0, 1, 1, "u", true, []⟩

/-- A file with two nodes, each in a block of its own. -/
def changingFile (a b : Int64) : Bytes := blockBytes exZ .uncompressed [.header changingInfo, .data [changingNode a], .data [changingNode b]]

/-- C98 fails if another file is put in the place of the file (renamed to its path) during the iteration: the iterator goes on with the frames of the file it has
opened but opens the path anew for every body. Here the nodes are 1, 2 in the one file and 3, 4 in the other, and 1, 4 are delivered, with no sign of
anything being wrong. -/
theorem C98_replaced : ∃ old new : Bytes,
    elementsSeen exZ (List.replicate 4 ⟨old, old, old⟩) = ([changingNode 1, changingNode 2], .done) ∧
    elementsSeen exZ (List.replicate 4 ⟨new, new, new⟩) = ([changingNode 3, changingNode 4], .done) ∧
    elementsSeen exZ (List.replicate 2 ⟨old, old, old⟩ ++ List.replicate 2 ⟨old, old, new⟩) = ([changingNode 1, changingNode 4], .done) :=
  ⟨changingFile 1 2, changingFile 3 4, by decide +kernel, by decide +kernel, by decide +kernel⟩

/-- The hypotheses of `C98_growing` hold for a reader that sees the header and half of the block first, and then all of it: the node arrives although the file is
still growing. -/
example : openReader exZ (blockBytes exZ .uncompressed [.header changingInfo]) = .ok changingInfo ∧
    (let f := changingFile 1 2
     let g := blockBytes exZ .uncompressed [.header changingInfo, .data [changingNode 1]]
     elementsSeen exZ [⟨g, g, g⟩, ⟨g, g, g⟩] = ([changingNode 1], .more) ∧ g <+: f) := by
  refine ⟨by decide +kernel, by decide +kernel, ⟨blockBytes exZ .uncompressed [.data [changingNode 2]], by decide +kernel⟩⟩

/-- The hypotheses of `C98_onto_itself` hold, and a node is lost. -/
example : ∃ info, openReader exZ (changingFile 1 2) = .ok info ∧ HeaderFits exZ .uncompressed { info with writingprogram := some "pbf-io-example" } := by
  refine ⟨changingInfo, by decide +kernel, ?_⟩
  unfold HeaderFits
  decide +kernel

end OsmIo
