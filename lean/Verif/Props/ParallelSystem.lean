import Verif.Lemmas.ParallelSystem
import Verif.Props.ParallelWriter
/-! # C68: the parallel writer as a whole -/
set_option linter.unusedSimpArgs false
set_option linter.flexible false
namespace OsmIo
open Spec

/-- C68. When `close` returns, after a program that began with `write_header`, whatever the threads did: the file is complete. It consists of the header, once, and of
all blocks made from the elements handed over, in order. -/
theorem C68_close_complete (g : ParSystem.Config) (hF : 0 < g.blockSize) (ops : List Op) (s : ParSystem) (hs : Occurs g (.header :: ops) s) (hc : Closed s) :
    ∃ blocks, ParallelBlocks g.S g.bufferSize g.blockSize (callsOf ops) blocks ∧
      s.file = some (blockBytes g.z g.c (.header g.info :: blocks.map .data)) := by
  obtain ⟨hp, hi⟩ := ParSystem.steps_phase hs
  have hhead := ParSystem.steps_headed hs
  unfold Closed at hc
  cases hp with
  | «open» pre h0 => omega
  | closing pre cs h1 => omega
  | flushing o h1 => omega
  | flushed o h1 h4 hfl hq ho hr hl =>
    have hw : ParSystem.writes (.header :: ops) = callsOf ops := rfl
    refine ⟨s.orderer.blocks, ⟨o, s.orderer, by rw [← hw]; exact hr, hl, rfl⟩, ?_⟩
    have hwq := hi.writing (by omega)
    have hpool := ParSystem.steps_pools hF hs hr hl
    have hd : (ParSystem.pools g s.orderer.blocks s).Drained := by
      refine ⟨?_, (hi.encoding (by omega)).1, (hi.encoding (by omega)).2, by simp [ParSystem.pools, hwq, ParSystem.blobs]⟩
      have := hi.ordering (by omega)
      unfold ParSystem.Ready at this
      simp [ParSystem.pools, this]
    have hfile := ((C24_blocks_in_order _ _ _ _ _ _ hpool).2 hd).1
    rcases hhead with h | ⟨r, h⟩ | rfl
    · obtain ⟨w, hw⟩ := Option.isSome_iff_exists.mp h
      simp only [ParSystem.pools, hw, Option.getD_some] at hfile
      simp [ParSystem.file, hw, hfile]
    · simp [hwq] at h
    · simp [ParSystem.init] at hc

/-- C68. If every call finds its elements in order and the program begins with `write_header`, no thread ever panics, no thread waits forever (whenever
`close` has not returned some thread can go on, although queues are bounded and `close` holds locks), and `close` can always still return. -/
theorem C68_no_deadlock (g : ParSystem.Config) (hF : 0 < g.blockSize) (hq : 0 < g.cap) (ht : 0 < g.threads) (ops : List Op)
    (hr : ∃ o, Orderer.run g.S g.bufferSize g.blockSize {} (callsOf ops) = .ok o) (s : ParSystem) (hs : Occurs g (.header :: ops) s) :
    ¬ Panicked s ∧ (¬ Closed s → ¬ Stuck g s) ∧ ∃ t, ParSystem.Steps g s t ∧ Closed t := by
  obtain ⟨o, hr⟩ := hr
  have hstep : ∀ t, Occurs g (.header :: ops) t → ¬ Panicked t ∧ (¬ Closed t → ¬ Stuck g t) := by
    intro t hs
    have hf := ParSystem.never_failed hr hs
    obtain ⟨hp, hi⟩ := ParSystem.steps_phase hs
    exact ⟨by simp [Panicked, hf], fun hc h => h (ParSystem.progress hF hq ht hp hi hf hc)⟩
  refine ⟨(hstep s hs).1, (hstep s hs).2, ?_⟩
  induction hw : ParSystem.work s using Nat.strong_induction_on generalizing s with
  | _ n ih =>
    by_cases hc : Closed s
    · exact ⟨s, .refl, hc⟩
    · obtain ⟨t, hst⟩ := not_not.mp ((hstep s hs).2 hc)
      have hlt := ParSystem.step_work hF (ParSystem.steps_phase hs).2 hst
      obtain ⟨u, h1, h2⟩ := ih _ (hw ▸ hlt) t (hs.tail hst) rfl
      exact ⟨u, .head hst h1, h2⟩

/-- C68. No schedule of the threads goes on for ever, whatever the program does with the writer. -/
theorem C68_schedules_end (g : ParSystem.Config) (hF : 0 < g.blockSize) (ops : List Op) :
    ¬ ∃ f : Nat → ParSystem, f 0 = ParSystem.init ops ∧ ∀ n, ParSystem.Step g (f n) (f (n + 1)) := by
  rintro ⟨f, h0, hf⟩
  have hocc : ∀ n, Occurs g ops (f n) := by
    intro n
    induction n with
    | zero => rw [h0]; exact .refl
    | succ n ih => exact ih.tail (hf n)
  have hdec : ∀ n, ParSystem.work (f n) + n ≤ ParSystem.work (f 0) := by
    intro n
    induction n with
    | zero => simp
    | succ n ih =>
      have := ParSystem.step_work hF (ParSystem.steps_phase (hocc n)).2 (hf n)
      omega
  have := hdec (ParSystem.work (f 0) + 1)
  omega

/-- C68. At every moment, whatever the threads have done so far, the file does not exist yet or consists of the header and the first blocks. -/
theorem C68_file_grows (g : ParSystem.Config) (hF : 0 < g.blockSize) (ops : List Op) (blocks : List (List Element))
    (hb : ParallelBlocks g.S g.bufferSize g.blockSize (callsOf ops) blocks) (s : ParSystem) (hs : Occurs g (.header :: ops) s) :
    s.file = none ∨ ∃ k ≤ blocks.length, s.file = some (blockBytes g.z g.c (.header g.info :: (blocks.take k).map .data)) := by
  obtain ⟨o, o', hr, hl, rfl⟩ := hb
  have hpool := ParSystem.steps_pools hF hs (show Orderer.run g.S g.bufferSize g.blockSize {} (ParSystem.writes (.header :: ops)) = .ok o from hr) hl
  obtain ⟨⟨k, hk, hfile⟩, -⟩ := C24_blocks_in_order _ _ _ _ _ _ hpool
  cases hw : s.writer with
  | none => left; simp [ParSystem.file, hw]
  | some w =>
    right
    simp only [ParSystem.pools, hw, Option.getD_some] at hfile
    exact ⟨k, hk, by simp [ParSystem.file, hw, hfile]⟩

/-- C68. When a call hands over an element that belongs before the last block (C27), `close` does not return: every schedule ends with a thread that has panicked. -/
theorem C68_lost_order (g : ParSystem.Config) (hF : 0 < g.blockSize) (hq : 0 < g.cap) (ht : 0 < g.threads) (ops : List Op)
    (hr : Orderer.run g.S g.bufferSize g.blockSize {} (callsOf ops) = .panic) (s : ParSystem) (hs : Occurs g ops s) :
    ¬ Closed s ∧ (Stuck g s → Panicked s) := by
  obtain ⟨hp, hi⟩ := ParSystem.steps_phase hs
  have hc : ¬ Closed s := by
    intro hc
    unfold Closed at hc
    cases hp with
    | «open» pre h0 => omega
    | closing pre cs h1 => omega
    | flushing o h1 => omega
    | flushed o h1 h4 hfl hq ho hr' hl =>
      rw [show ParSystem.writes ops = callsOf ops from rfl, hr] at hr'
      simp at hr'
  refine ⟨hc, fun hst => ?_⟩
  by_contra hf
  exact hst (ParSystem.progress hF hq ht hp hi (by simpa [Panicked] using hf) hc)

/-- C68. A program that never calls `write_header` but writes an element does not get past `close`. -/
theorem C68_header_missing (g : ParSystem.Config) (hF : 0 < g.blockSize) (hq : 0 < g.cap) (ht : 0 < g.threads) (ops : List Op) (hh : Op.header ∉ ops)
    (hn : submitted (callsOf ops) ≠ []) (s : ParSystem) (hs : Occurs g ops s) :
    ¬ Closed s ∧ (Stuck g s → Panicked s) := by
  obtain ⟨hp, hi⟩ := ParSystem.steps_phase hs
  have hc : ¬ Closed s := by
    intro hc
    unfold Closed at hc
    cases hp with
    | «open» pre h0 => omega
    | closing pre cs h1 => omega
    | flushing o h1 => omega
    | flushed o h1 h4 hfl hq ho hr hl =>
      obtain ⟨-, -, -, hnext⟩ := ParSystem.no_header hh hs
      have hwq := hi.writing (by omega)
      have hpool := ParSystem.steps_pools hF hs hr hl
      have hd : (ParSystem.pools g s.orderer.blocks s).Drained := by
        refine ⟨?_, (hi.encoding (by omega)).1, (hi.encoding (by omega)).2, by simp [ParSystem.pools, hwq, ParSystem.blobs]⟩
        have := hi.ordering (by omega)
        unfold ParSystem.Ready at this
        simp [ParSystem.pools, this]
      have hinv := Pipeline.steps_inv (Pipeline.init_inv g.z g.info g.c s.orderer.blocks) hpool
      have := (Pipeline.drained_next hinv hd).1
      simp only [ParSystem.pools, hnext] at this
      have hb : s.orderer.blocks = [] := List.length_eq_zero_iff.mp (by omega)
      have hperm := C25_permutation g.S g.bufferSize g.blockSize (callsOf ops) s.orderer.blocks ⟨o, s.orderer, hr, hl, rfl⟩
      rw [hb] at hperm
      exact hn (List.perm_nil.mp hperm.symm)
  refine ⟨hc, fun hst => ?_⟩
  by_contra hf
  exact hst (ParSystem.progress hF hq ht hp hi (by simpa [Panicked] using hf) hc)

/-! ### Concrete programs -/

/-- A parallel writer with blocks of two elements, a buffer of two, queues of length one and two encoding threads. -/
def exSystem (z : Zlib) (info : FileInfo) (c : CompressionType) : ParSystem.Config := ⟨z, mergeSortStd, info, c, 2, 2, 1, 2⟩

/-- A program that writes the header twice and three nodes out of order. -/
def exOps : List Op := [.write (.element (nodeN 1)), .header, .write (.elements [nodeN 3, nodeN 2])]

theorem exOps_run : Orderer.run mergeSortStd 2 2 {} (callsOf exOps) = .ok ⟨[nodeN 3], some (nodeN 1), [[nodeN 1, nodeN 2]]⟩ := by
  have h : [nodeN 1, nodeN 3, nodeN 2].mergeSort Element.le = [nodeN 1, nodeN 2, nodeN 3] := by
    have h13 : (nodeN 1).le (nodeN 3) = true := by decide
    have h32 : (nodeN 3).le (nodeN 2) = false := by decide
    have h12 : (nodeN 1).le (nodeN 2) = true := by decide
    simp [List.mergeSort, List.MergeSort.Internal.splitInTwo, List.splitAt, List.splitAt.go, List.merge, h13, h32, h12]
  simp [exOps, callsOf, Orderer.run, Orderer.exec, Orderer.push, Orderer.assertOrder, Orderer.checkFull, Orderer.flushTop, mergeSortStd, h]
  decide +kernel

/-- The hypotheses of `C68_no_deadlock` and `C68_close_complete` are met, with the expected file. -/
example (z : Zlib) (info : FileInfo) (c : CompressionType) :
    ∃ s, Occurs (exSystem z info c) (.header :: exOps) s ∧ Closed s ∧
      s.file = some (blockBytes z c [.header info, .data [nodeN 1, nodeN 2], .data [nodeN 3]]) := by
  obtain ⟨-, -, s, hs, hc⟩ := C68_no_deadlock (exSystem z info c) Nat.two_pos Nat.one_pos Nat.two_pos exOps ⟨_, exOps_run⟩ _ .refl
  refine ⟨s, hs, hc, ?_⟩
  obtain ⟨blocks, hb, hf⟩ := C68_close_complete (exSystem z info c) Nat.two_pos exOps s hs hc
  obtain ⟨o, o', h1, h2, rfl⟩ := hb
  rw [show Orderer.run (exSystem z info c).S (exSystem z info c).bufferSize (exSystem z info c).blockSize {} (callsOf exOps) = _ from exOps_run] at h1
  cases h1
  have h3 : Orderer.FlushAll mergeSortStd 2 ⟨[nodeN 3], some (nodeN 1), [[nodeN 1, nodeN 2]]⟩ ⟨[], some (nodeN 3), [[nodeN 1, nodeN 2], [nodeN 3]]⟩ := by
    unfold Orderer.FlushAll
    refine .step _ _ (by simp [mergeSortStd]) ?_
    have : Orderer.emit 2 { buffer := mergeSortStd.sort [nodeN 3], min := some (nodeN 1), blocks := [[nodeN 1, nodeN 2]] } =
        ⟨[], some (nodeN 3), [[nodeN 1, nodeN 2], [nodeN 3]]⟩ := by
      simp [mergeSortStd]
      decide +kernel
    rw [this]
    exact .done _ rfl
  have := flushLoop_det h2 h3
  subst this
  exact hf

/-- The hypothesis of `C68_lost_order` is met by a program. -/
example : Orderer.run mergeSortStd 1 1 {} (callsOf [.header, .write (.elements [nodeN 2, nodeN 3]), .write (.element (nodeN 1))]) = .panic := by
  have h : [nodeN 2, nodeN 3].mergeSort Element.le = [nodeN 2, nodeN 3] := by
    have h23 : (nodeN 2).le (nodeN 3) = true := by decide
    simp [List.mergeSort, List.MergeSort.Internal.splitInTwo, List.splitAt, List.splitAt.go, List.merge, h23]
  simp [callsOf, Orderer.run, Orderer.exec, Orderer.push, Orderer.assertOrder, Orderer.checkFull, Orderer.flushTop, mergeSortStd, h]
  decide +kernel

/-- Those of `C68_header_missing` as well. -/
example : Op.header ∉ [Op.write (.element (nodeN 1))] ∧ submitted (callsOf [Op.write (.element (nodeN 1))]) ≠ [] := by decide +kernel

end OsmIo
