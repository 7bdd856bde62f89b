import Verif.Lemmas.ParallelHeader
import Verif.Spec.ParallelHeader
import Verif.Props.ParallelSystem
import Verif.Props.ParallelMemory
/-! # C96: when `write_header` of a parallel writer has to be called -/
set_option linter.unusedSimpArgs false
set_option linter.flexible false
namespace OsmIo
open Spec

/-- C96. If `write_header` is called at all, at whatever time and however often: whenever `close` returns, the file begins with the header, once, and has all blocks made
from the elements, in order, including those handed over before `write_header`. -/
theorem C96_close_complete (g : ParSystem.Config) (hF : 0 < g.blockSize) (ops : List Op) (hh : Op.header ∈ ops) (s : ParSystem) (hs : Occurs g ops s) (hc : Closed s) :
    ∃ blocks, ParallelBlocks g.S g.bufferSize g.blockSize (callsOf ops) blocks ∧
      s.file = some (blockBytes g.z g.c (.header g.info :: blocks.map .data)) := by
  obtain ⟨hp, hi⟩ := ParSystem.steps_phase hs
  have hhead := ParSystem.header_somewhere hh hs
  unfold Closed at hc
  cases hp with
  | «open» pre h0 => omega
  | closing pre cs h1 => omega
  | flushing o h1 => omega
  | flushed o h1 h4 hfl hq ho hr hl =>
    refine ⟨s.orderer.blocks, ⟨o, s.orderer, hr, hl, rfl⟩, ?_⟩
    have hwq := hi.writing (by omega)
    have hpool := ParSystem.steps_pools hF hs hr hl
    have hd : (ParSystem.pools g s.orderer.blocks s).Drained := by
      refine ⟨?_, (hi.encoding (by omega)).1, (hi.encoding (by omega)).2, by simp [ParSystem.pools, hwq, ParSystem.blobs]⟩
      have := hi.ordering (by omega)
      unfold ParSystem.Ready at this
      simp [ParSystem.pools, this]
    have hfile := ((C24_blocks_in_order _ _ _ _ _ _ hpool).2 hd).1
    rcases hhead with h | h | h
    · simp [ho] at h
    · simp [hwq] at h
    · obtain ⟨w, hw⟩ := Option.isSome_iff_exists.mp h
      simp only [ParSystem.pools, hw, Option.getD_some] at hfile
      simp [ParSystem.file, hw, hfile]

/-- C96. Without a call of `write_header` no file is ever created. -/
theorem C96_no_file (g : ParSystem.Config) (ops : List Op) (hh : Op.header ∉ ops) (s : ParSystem) (hs : Occurs g ops s) : s.file = none := by
  simp [ParSystem.file, (ParSystem.no_header hh hs).2.1]

/-- C96. Then `close` can return exactly if there was nothing to write, and a thread can panic exactly if there was something. -/
theorem C96_never_called (g : ParSystem.Config) (hF : 0 < g.blockSize) (hq : 0 < g.cap) (ht : 0 < g.threads) (ops : List Op) (hh : Op.header ∉ ops) :
    ((∃ s, Occurs g ops s ∧ Closed s) ↔ submitted (callsOf ops) = []) ∧ ((∃ s, Occurs g ops s ∧ Panicked s) ↔ submitted (callsOf ops) ≠ []) := by
  obtain ⟨t, h1, h2⟩ := ParSystem.ends hF hq ht (ops := ops) (s := ParSystem.init ops) .refl
  have hno : submitted (callsOf ops) = [] → ∀ s, Occurs g ops s → ¬ Panicked s := by
    intro hn s hs hf
    have := (ParSystem.steps_nothing hF hh hn hs).1
    simp [Panicked, this] at hf
  have hcl : submitted (callsOf ops) ≠ [] → ∀ s, Occurs g ops s → ¬ Closed s := fun hn s hs => (C68_header_missing g hF hq ht ops hh hn s hs).1
  refine ⟨⟨?_, fun hn => ⟨t, h1, h2.resolve_right (hno hn t h1)⟩⟩, ⟨?_, fun hn => ⟨t, h1, h2.resolve_left (hcl hn t h1)⟩⟩⟩
  · rintro ⟨s, hs, hc⟩
    by_contra hn
    exact hcl hn s hs hc
  · rintro ⟨s, hs, hf⟩ hn
    exact hno hn s hs hf

/-- C96. A program whose first call of `write_header` comes after the calls `pre` can panic in some order of the threads exactly if an element arrives out of order
or a block was made before `write_header` was called. -/
theorem C96_panics_iff (g : ParSystem.Config) (hF : 0 < g.blockSize) (hq : 0 < g.cap) (ht : 0 < g.threads) (pre post : List Op) (hh : Op.header ∉ pre) :
    (∃ s, Occurs g (pre ++ .header :: post) s ∧ Panicked s) ↔ LosesOrder g (callsOf (pre ++ post)) ∨ MakesBlock g (callsOf pre) := by
  have hcalls : callsOf (pre ++ .header :: post) = callsOf (pre ++ post) := by simp [callsOf]
  constructor
  · rintro ⟨s, hs, hf⟩
    by_contra hn
    simp only [not_or] at hn
    obtain ⟨h1, h2⟩ := hn
    cases hr : Orderer.run g.S g.bufferSize g.blockSize {} (callsOf (pre ++ post)) with
    | panic => exact h1 hr
    | err => exact run_not_err _ _ hr
    | ok o =>
      cases hr1 : Orderer.run g.S g.bufferSize g.blockSize {} (callsOf pre) with
      | panic =>
        have e : callsOf (pre ++ post) = callsOf pre ++ callsOf post := by simp [callsOf]
        rw [e, run_append, hr1] at hr
        simp at hr
      | err => exact run_not_err _ _ hr1
      | ok o1 =>
        have hb : o1.blocks = [] := by
          by_contra hb
          exact h2 ⟨o1, hr1, hb⟩
        have := ParSystem.never_failed_late (g := g) (pre := pre) (post := post) hr1 hb (o := o) (by
          show Orderer.run _ _ _ _ (callsOf (pre ++ .header :: post)) = _
          rw [hcalls]; exact hr) hs
        simp [Panicked, this] at hf
  · rintro (h | ⟨o, hr, hb⟩)
    · obtain ⟨t, h1, h2⟩ := ParSystem.ends hF hq ht (ops := pre ++ .header :: post) (s := ParSystem.init (pre ++ .header :: post)) .refl
      rcases h2 with h2 | h2
      · exact absurd h2 (C68_lost_order g hF hq ht (pre ++ .header :: post) (by rw [hcalls]; exact h) t h1).1
      · exact ⟨t, h1, h2⟩
    · exact ParSystem.late_panics hq ht hh hr hb

/-- C96. `write_header` may come after other calls as long as the ordering buffer has room for their elements: then, if no element arrives out of order, no thread
panics, some thread can always go on until `close` returns, and it can always return. -/
theorem C96_room (g : ParSystem.Config) (hF : 0 < g.blockSize) (hq : 0 < g.cap) (ht : 0 < g.threads) (pre post : List Op)
    (hroom : (submitted (callsOf pre)).length ≤ g.bufferSize) (horder : ¬ LosesOrder g (callsOf (pre ++ post)))
    (s : ParSystem) (hs : Occurs g (pre ++ .header :: post) s) :
    ¬ Panicked s ∧ (¬ Closed s → ¬ Stuck g s) ∧ ∃ t, ParSystem.Steps g s t ∧ Closed t := by
  have hcalls : callsOf (pre ++ .header :: post) = callsOf (pre ++ post) := by simp [callsOf]
  have e : callsOf (pre ++ post) = callsOf pre ++ callsOf post := by simp [callsOf]
  have hno : ∀ s, Occurs g (pre ++ .header :: post) s → ¬ Panicked s := by
    intro s hs hf
    cases hr : Orderer.run g.S g.bufferSize g.blockSize {} (callsOf (pre ++ post)) with
    | panic => exact horder hr
    | err => exact run_not_err _ _ hr
    | ok o =>
      have hr' := hr
      rw [e, run_append, Out.bind_eq_ok] at hr'
      obtain ⟨o1, hr1, -⟩ := hr'
      have hb := (run_room (callsOf pre) (o := {}) (by simpa using hroom) hr1).1
      have := ParSystem.never_failed_late (g := g) (pre := pre) (post := post) hr1 hb (o := o) (by
          show Orderer.run _ _ _ _ (callsOf (pre ++ .header :: post)) = _
          rw [hcalls]; exact hr) hs
      simp [Panicked, this] at hf
  obtain ⟨hp, hi⟩ := ParSystem.steps_phase hs
  refine ⟨hno s hs, fun hc h => h (ParSystem.progress hF hq ht hp hi (by simpa [Panicked] using hno s hs) hc), ?_⟩
  obtain ⟨t, h1, h2⟩ := ParSystem.ends hF hq ht hs
  exact ⟨t, h1, h2.resolve_right (hno t (hs.trans h1))⟩

/-- C96. A late `write_header` need not be fatal: if at most as many calls precede it as the queue of the ordering thread holds (256) and no element arrives out of order,
some order of the threads completes the file. Whether the program works is up to the scheduler. -/
theorem C96_lucky (g : ParSystem.Config) (hF : 0 < g.blockSize) (hq : 0 < g.cap) (ht : 0 < g.threads) (pre post : List Op) (hh : Op.header ∉ pre)
    (hl : pre.length ≤ g.cap) (horder : ¬ LosesOrder g (callsOf (pre ++ post))) :
    ∃ s, Occurs g (pre ++ .header :: post) s ∧ Closed s := by
  have hcalls : callsOf (pre ++ .header :: post) = callsOf (pre ++ post) := by simp [callsOf]
  obtain ⟨t, k1, k2, k3, k4, k5⟩ := ParSystem.run_ahead (g := g) pre (.header :: post) hh (s := ParSystem.init (pre ++ .header :: post)) rfl rfl rfl
    (by simpa [ParSystem.init] using hl) rfl
  have st1 := ParSystem.Step.header (g := g) t post k3 k4 k2 (by simp [k5, hq])
  have st2 := ParSystem.Step.writeHeader (g := g) (s := { t with ops := post, writeQueue := t.writeQueue ++ [.header] }) (rest := []) k3 (by simp [k5])
  have hs := (k1.tail st1).tail st2
  obtain ⟨u, h1, h2⟩ := ParSystem.ends hF hq ht hs
  refine ⟨u, hs.trans h1, h2.resolve_right fun hf => ?_⟩
  cases hr : Orderer.run g.S g.bufferSize g.blockSize {} (callsOf (pre ++ post)) with
  | panic => exact horder hr
  | err => exact run_not_err _ _ hr
  | ok o =>
    have := (ParSystem.never_failed_after (g := g) (o := o) (by
        show Orderer.run _ _ _ _ (callsOf (pre ++ .header :: post)) = _
        rw [hcalls]; exact hr) hs rfl k3 h1).2
    simp [Panicked, this] at hf

/-! ### Concrete programs -/

/-- `write_header` after one node, with a buffer for two: the program of `exOps`. It meets the hypotheses of `C96_room` and of `C96_close_complete`. -/
example (z : Zlib) (info : FileInfo) (c : CompressionType) :
    ∃ s, Occurs (exSystem z info c) exOps s ∧ Closed s ∧
      ∃ blocks, ParallelBlocks mergeSortStd 2 2 (callsOf exOps) blocks ∧ s.file = some (blockBytes z c (.header info :: blocks.map .data)) := by
  obtain ⟨-, -, s, hs, hc⟩ := C96_room (exSystem z info c) Nat.two_pos Nat.one_pos Nat.two_pos [.write (.element (nodeN 1))] [.write (.elements [nodeN 3, nodeN 2])]
    (by show 1 ≤ 2; omega) (by
      intro h
      exact absurd (exOps_run.symm.trans h) (nomatch ·)) _ .refl
  exact ⟨s, hs, hc, C96_close_complete (exSystem z info c) Nat.two_pos exOps (by decide +kernel) s hs hc⟩

/-- A late `write_header`: three nodes in one call with a buffer for two. The program may panic and may succeed. -/
theorem C96_late_witness (z : Zlib) (info : FileInfo) (c : CompressionType) :
    (∃ s, Occurs (exSystem z info c) [.write (.elements [nodeN 1, nodeN 2, nodeN 3]), .header] s ∧ Panicked s) ∧
      ∃ s, Occurs (exSystem z info c) [.write (.elements [nodeN 1, nodeN 2, nodeN 3]), .header] s ∧ Closed s := by
  have hrun : Orderer.run mergeSortStd 2 2 {} [.elements [nodeN 1, nodeN 2, nodeN 3]] = .ok ⟨[nodeN 3], some (nodeN 1), [[nodeN 1, nodeN 2]]⟩ := by
    have hs := sort_of_sorted mergeSortStd (l := [nodeN 1, nodeN 2, nodeN 3]) (by unfold NoSentinel; decide +kernel) (by unfold Sorted; decide +kernel)
    simp [Orderer.run, Orderer.exec, Orderer.push, Orderer.assertOrder, Orderer.checkFull, Orderer.flushTop, hs]
    decide +kernel
  constructor
  · exact (C96_panics_iff (exSystem z info c) Nat.two_pos Nat.one_pos Nat.two_pos [.write (.elements [nodeN 1, nodeN 2, nodeN 3])] [] (by decide +kernel)).2
      (.inr ⟨_, hrun, by simp⟩)
  · exact C96_lucky (exSystem z info c) Nat.two_pos Nat.one_pos Nat.two_pos [.write (.elements [nodeN 1, nodeN 2, nodeN 3])] [] (by decide +kernel) (by show 1 ≤ 1; omega)
      (by
        intro h
        exact absurd (hrun.symm.trans h) (nomatch ·))

/-- A program without `write_header` that closes without a file, and one that does not. -/
example (z : Zlib) (info : FileInfo) (c : CompressionType) :
    (∃ s, Occurs (exSystem z info c) [.write (.elements [])] s ∧ Closed s) ∧ ∃ s, Occurs (exSystem z info c) [.write (.elements [nodeN 1])] s ∧ Panicked s :=
  ⟨(C96_never_called (exSystem z info c) Nat.two_pos Nat.one_pos Nat.two_pos _ (by decide +kernel)).1.2 (by decide +kernel),
    (C96_never_called (exSystem z info c) Nat.two_pos Nat.one_pos Nat.two_pos _ (by decide +kernel)).2.2 (by decide +kernel)⟩

end OsmIo
