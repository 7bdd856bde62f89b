import Verif.Model.FailingDisk
import Verif.Props.WriterCalls
import Verif.Props.CutFile
/-!
# I/O errors in writing (C78)
-/
namespace OsmIo
open Spec

/-- The writer with its file on a disk that has worked so far. -/
def DiskWriter.plain (w : DiskWriter) : Writer := ⟨w.file_info, w.compression, w.disk.file, w.acc⟩

/-- What a call did, next to the same call without faults. -/
structure Step78 (z : Zlib) (w : DiskWriter) (c : WriterCall) (r : CallResult) (w' : DiskWriter) : Prop where
  faults : w'.disk.faults = w.disk.faults
  count : w.disk.count ≤ w'.disk.count
  err : r = .err ↔ ∃ i, w.disk.count ≤ i ∧ i < w'.disk.count ∧ w.disk.faults i ≠ none
  ok : r = .ok → w.plain.call z c = .ok w'.plain
  torn : r = .err → ∃ v, w.plain.call z c = .ok v ∧ w.disk.file <+: w'.disk.file ∧ w'.disk.file <+: v.file ∧
    w'.acc = v.acc ∧ w'.file_info = v.file_info ∧ w'.compression = v.compression
  panic : r = .panic → w.plain.call z c = .panic ∧ w' = w

theorem writeBlob_step (w : DiskWriter) (h b : Bytes) :
    let (r, w') := w.writeBlob h b
    w'.disk.faults = w.disk.faults ∧ w.disk.count ≤ w'.disk.count ∧
    (r = .err ↔ ∃ i, w.disk.count ≤ i ∧ i < w'.disk.count ∧ w.disk.faults i ≠ none) ∧
    (r = .ok → w.plain.writeBlob h b = w'.plain) ∧ (r ≠ .panic) ∧
    (r = .err → w.disk.file <+: w'.disk.file ∧ w'.disk.file <+: (w.plain.writeBlob h b).file ∧
      w'.acc = w.acc ∧ w'.file_info = w.file_info ∧ w'.compression = w.compression) := by
  unfold DiskWriter.writeBlob Disk.writeAll
  cases f0 : w.disk.faults w.disk.count with
  | some k =>
    refine ⟨rfl, by simp, ⟨fun _ => ⟨w.disk.count, by simp, by simp, by simp [f0]⟩, fun _ => rfl⟩, by simp, by simp, fun _ => ⟨⟨_, rfl⟩, ?_, rfl, rfl, rfl⟩⟩
    simp only [Writer.writeBlob, DiskWriter.plain, blobBytes, List.append_assoc]
    exact (List.prefix_append_right_inj _).2 ((List.take_prefix _ _).trans (List.prefix_append _ _))
  | none =>
    simp only
    cases f1 : w.disk.faults (w.disk.count + 1) with
    | some k =>
      refine ⟨rfl, (show w.disk.count ≤ w.disk.count + 1 + 1 by omega), ⟨fun _ => ⟨w.disk.count + 1, by omega, by simp, by simp [f1]⟩, fun _ => rfl⟩, by simp, by simp, fun _ => ⟨?_, ?_, rfl, rfl, rfl⟩⟩
      · simp only [List.append_assoc]; exact ⟨_, rfl⟩
      · simp only [Writer.writeBlob, DiskWriter.plain, blobBytes, List.append_assoc]
        refine (List.prefix_append_right_inj _).2 ((List.prefix_append_right_inj _).2 ?_)
        exact (List.take_prefix _ _).trans (List.prefix_append _ _)
    | none =>
      simp only
      cases f2 : w.disk.faults (w.disk.count + 1 + 1) with
      | some k =>
        refine ⟨rfl, (show w.disk.count ≤ w.disk.count + 1 + 1 + 1 by omega), ⟨fun _ => ⟨w.disk.count + 1 + 1, by omega, by simp, by simp [f2]⟩, fun _ => rfl⟩, by simp, by simp, fun _ => ⟨?_, ?_, rfl, rfl, rfl⟩⟩
        · simp only [List.append_assoc]; exact ⟨_, rfl⟩
        · simp only [Writer.writeBlob, DiskWriter.plain, blobBytes, List.append_assoc]
          refine (List.prefix_append_right_inj _).2 ((List.prefix_append_right_inj _).2 ((List.prefix_append_right_inj _).2 ?_))
          exact List.take_prefix _ _
      | none =>
        refine ⟨rfl, (show w.disk.count ≤ w.disk.count + 1 + 1 + 1 by omega), ⟨by simp, ?_⟩, ?_, by simp, by simp⟩
        · rintro ⟨i, h1, h2, h3⟩
          simp only at h2
          obtain rfl | rfl | rfl : i = w.disk.count ∨ i = w.disk.count + 1 ∨ i = w.disk.count + 1 + 1 := by omega
          · exact absurd f0 h3
          · exact absurd f1 h3
          · exact absurd f2 h3
        · intro _
          simp [Writer.writeBlob, DiskWriter.plain, blobBytes]

theorem writeFileBlock_step (z : Zlib) (w w0 : DiskWriter) (b : FileBlock) (c : WriterCall) (hd : w0.disk = w.disk)
    (hc : w0.plain.call z c = .ok (w.plain.writeFileBlock z b)) :
    Step78 z w0 c (w.writeFileBlock z b).1 (w.writeFileBlock z b).2 := by
  have h := writeBlob_step w (b.serialize z w.compression).1 (b.serialize z w.compression).2
  have e : w.writeFileBlock z b = w.writeBlob (b.serialize z w.compression).1 (b.serialize z w.compression).2 := rfl
  rw [e]
  generalize w.writeBlob _ _ = p at h
  obtain ⟨r, w'⟩ := p
  simp only at h ⊢
  obtain ⟨h1, h2, h3, h4, h5, h6⟩ := h
  refine ⟨by rw [h1, hd], by rw [hd]; exact h2, by rw [hd]; exact h3, fun hr => ?_, fun hr => ?_, fun hr => absurd hr h5⟩
  · rw [hc]
    exact congrArg Out.ok (h4 hr)
  · obtain ⟨a, b, c, d, e⟩ := h6 hr
    exact ⟨_, hc, by rw [hd]; exact a, b, c, d, e⟩

theorem DiskWriter.close_eq (z : Zlib) (w : DiskWriter) : w.close z = if w.acc.elements.isEmpty = true then
    (.ok, { w with acc := { w.acc with elements := [] } }) else DiskWriter.writeElements z { w with acc := { w.acc with elements := [] } } w.acc.elements := rfl

theorem Writer.close_eq (z : Zlib) (w : Writer) : w.close z = if w.acc.elements.isEmpty = true then
    { w with acc := { w.acc with elements := [] } } else Writer.writeElements z { w with acc := { w.acc with elements := [] } } w.acc.elements := rfl

theorem call_step (z : Zlib) (w : DiskWriter) (c : WriterCall) :
    Step78 z w c (w.call z c).1 (w.call z c).2 := by
  have noop : ∀ w' : DiskWriter, w'.disk = w.disk → w.plain.call z c = .ok w'.plain → Step78 z w c .ok w' := by
    intro w' hd hc
    refine ⟨by rw [hd], by rw [hd], ⟨by simp, ?_⟩, fun _ => hc, by simp, by simp⟩
    rintro ⟨i, h1, h2, -⟩
    rw [hd] at h2
    omega
  cases c with
  | header => exact writeFileBlock_step z w w (.header w.file_info) .header rfl rfl
  | block b => exact writeFileBlock_step z w w b (.block b) rfl rfl
  | elements es => exact writeFileBlock_step z w w (.data es) (.elements es) rfl rfl
  | close =>
    simp only [DiskWriter.call]
    rw [DiskWriter.close_eq]
    by_cases he : w.acc.elements.isEmpty = true
    · rw [if_pos he]
      exact noop _ rfl (by simp only [Writer.call, DiskWriter.plain]; rw [Writer.close_eq, if_pos he])
    · rw [if_neg he]
      exact writeFileBlock_step z { w with acc := { w.acc with elements := [] } } w _ .close rfl
        (by simp only [Writer.call, DiskWriter.plain]; rw [Writer.close_eq, if_neg he]; rfl)
  | element e =>
    simp only [DiskWriter.call, DiskWriter.writeElement]
    cases ha : w.acc.add e with
    | ok p =>
      obtain ⟨o, acc⟩ := p
      cases o with
      | none =>
        refine noop _ rfl ?_
        simp [Writer.call, Writer.writeElement, DiskWriter.plain, ha]
      | some es =>
        refine writeFileBlock_step z { w with acc := acc } w (.data es) (.element e) rfl ?_
        simp [Writer.call, Writer.writeElement, DiskWriter.plain, ha, Writer.writeElements]
    | err => exact absurd ha (by cases w.acc with | mk s el st => cases st <;> cases e <;> simp [Accumulator.add])
    | panic =>
      refine ⟨rfl, Nat.le_refl _, ⟨by simp, ?_⟩, by simp, by simp, fun _ => ⟨?_, rfl⟩⟩
      · rintro ⟨i, h1, h2, -⟩
        simp only at h2
        omega
      · simp [Writer.call, Writer.writeElement, DiskWriter.plain, ha]

theorem calls_faults (z : Zlib) (cs : List WriterCall) : ∀ w : DiskWriter,
    (w.calls z cs).2.disk.faults = w.disk.faults ∧ w.disk.count ≤ (w.calls z cs).2.disk.count ∧
    (CallResult.err ∈ (w.calls z cs).1 ↔ ∃ i, w.disk.count ≤ i ∧ i < (w.calls z cs).2.disk.count ∧ w.disk.faults i ≠ none) := by
  induction cs with
  | nil =>
    intro w
    refine ⟨rfl, Nat.le_refl _, by simp [DiskWriter.calls], ?_⟩
    rintro ⟨i, h1, h2, -⟩
    simp only [DiskWriter.calls] at h2
    omega
  | cons c cs ih =>
    intro w
    have s := call_step z w c
    obtain ⟨h1, h2, h3⟩ := ih (w.call z c).2
    simp only [DiskWriter.calls]
    refine ⟨by rw [h1, s.faults], Nat.le_trans s.count h2, ?_⟩
    rw [List.mem_cons, h3, eq_comm, s.err, s.faults]
    constructor
    · rintro (⟨i, a, b, d⟩ | ⟨i, a, b, d⟩)
      · exact ⟨i, a, by omega, d⟩
      · exact ⟨i, by have := s.count; omega, b, d⟩
    · rintro ⟨i, a, b, d⟩
      by_cases hi : i < (w.call z c).2.disk.count
      · exact .inl ⟨i, a, hi, d⟩
      · exact .inr ⟨i, by omega, b, d⟩

/-- C78: an I/O error is reported by the call it happens in; without one no call returns an error. -/
theorem C78_reported (z : Zlib) (c : CompressionType) (info : FileInfo) (faults : Nat → Option Nat) (cs : List WriterCall)
    (rs : List CallResult) (w : DiskWriter) (h : (DiskWriter.fromFileInfo info c faults).calls z cs = (rs, w)) :
    CallResult.err ∈ rs ↔ ∃ i < w.disk.count, faults i ≠ none := by
  have := (calls_faults z cs (DiskWriter.fromFileInfo info c faults)).2.2
  rw [h] at this
  simpa [DiskWriter.fromFileInfo] using this

theorem calls_ok (z : Zlib) (cs : List WriterCall) : ∀ w : DiskWriter, (∀ r ∈ (w.calls z cs).1, r = .ok) →
    w.plain.calls z cs = .ok (w.calls z cs).2.plain := by
  induction cs with
  | nil => intro w _; rfl
  | cons c cs ih =>
    intro w h
    simp only [DiskWriter.calls, List.mem_cons, forall_eq_or_imp] at h
    have s := call_step z w c
    simp only [Writer.calls, s.ok h.1, Out.ok_bind]
    exact ih _ h.2

/-- C78: if no call returned an error or panicked, the file is the one a disk without faults would hold. -/
theorem C78_success (z : Zlib) (c : CompressionType) (info : FileInfo) (faults : Nat → Option Nat) (cs : List WriterCall)
    (rs : List CallResult) (w : DiskWriter) (h : (DiskWriter.fromFileInfo info c faults).calls z cs = (rs, w)) (hok : ∀ r ∈ rs, r = .ok) :
    ∃ v, (Writer.fromFileInfo info c).calls z cs = .ok v ∧ w.disk.file = v.file := by
  have := calls_ok z cs (DiskWriter.fromFileInfo info c faults) (by rw [h]; exact hok)
  rw [h] at this
  exact ⟨_, this, rfl⟩

theorem calls_split (z : Zlib) (cs : List WriterCall) (d : WriterCall) : ∀ w : DiskWriter,
    w.calls z (cs ++ [d]) = ((w.calls z cs).1 ++ [((w.calls z cs).2.call z d).1], ((w.calls z cs).2.call z d).2) := by
  induction cs with
  | nil => intro w; simp [DiskWriter.calls]
  | cons c cs ih =>
    intro w
    simp only [List.cons_append, DiskWriter.calls]
    rw [ih]

/-- C78: the call that meets the error reports it: a call returns an error exactly if one of the writes it made failed. -/
theorem C78_at_once (z : Zlib) (c : CompressionType) (info : FileInfo) (faults : Nat → Option Nat) (before : List WriterCall) (d : WriterCall)
    (rs rs' : List CallResult) (r : CallResult) (w w' : DiskWriter) (h : (DiskWriter.fromFileInfo info c faults).calls z before = (rs, w))
    (h' : (DiskWriter.fromFileInfo info c faults).calls z (before ++ [d]) = (rs' ++ [r], w')) :
    rs' = rs ∧ (r = .err ↔ ∃ i, w.disk.count ≤ i ∧ i < w'.disk.count ∧ faults i ≠ none) := by
  rw [calls_split, h] at h'
  simp only [Prod.mk.injEq] at h'
  obtain ⟨h1, h2⟩ := h'
  obtain ⟨h1, h3⟩ := List.append_inj' h1 rfl
  simp only [List.cons.injEq, and_true] at h3
  have s := (call_step z w d).err
  have hf := (calls_faults z before (DiskWriter.fromFileInfo info c faults)).1
  rw [h] at hf
  rw [h3, h2, hf] at s
  exact ⟨h1.symm, s⟩

theorem calls_works (z : Zlib) (cs : List WriterCall) : ∀ (w : DiskWriter) (v : Writer), (∀ i, w.disk.faults i = none) →
    w.plain.calls z cs = .ok v → ∀ r ∈ (w.calls z cs).1, r = .ok := by
  induction cs with
  | nil => intro w v _ _ r h; simp [DiskWriter.calls] at h
  | cons c cs ih =>
    intro w v hf h r hr
    have s := call_step z w c
    have hok : (w.call z c).1 = .ok := by
      cases e : (w.call z c).1 with
      | ok => rfl
      | err =>
        obtain ⟨i, -, -, hi⟩ := s.err.1 e
        exact absurd (hf i) hi
      | panic =>
        simp only [Writer.calls, (s.panic e).1] at h
        cases h
    simp only [Writer.calls, s.ok hok, Out.ok_bind] at h
    simp only [DiskWriter.calls, List.mem_cons] at hr
    rcases hr with rfl | hr
    · exact hok
    · exact ih _ v (fun i => by rw [s.faults]; exact hf i) h r hr

/-- C78: without I/O errors, calls that the writer accepts all return success (and by `C78_success` write the file of C75). -/
theorem C78_works (z : Zlib) (c : CompressionType) (info : FileInfo) (cs : List WriterCall)
    (v : Writer) (hv : (Writer.fromFileInfo info c).calls z cs = .ok v)
    (rs : List CallResult) (w : DiskWriter) (h : (DiskWriter.fromFileInfo info c fun _ => none).calls z cs = (rs, w)) :
    (∀ r ∈ rs, r = .ok) ∧ w.disk.file = v.file := by
  have a := calls_works z cs (DiskWriter.fromFileInfo info c fun _ => none) v (fun _ => rfl) hv
  rw [h] at a
  obtain ⟨v', h1, h2⟩ := C78_success z c info _ cs rs w h a
  rw [hv] at h1
  injection h1 with h1
  exact ⟨a, by rw [h2, h1]⟩

/-- C78: when a call returns the first error, the file holds all that the calls before it had written and a beginning of
what this call writes. -/
theorem C78_first_error (z : Zlib) (c : CompressionType) (info : FileInfo) (faults : Nat → Option Nat) (before : List WriterCall) (d : WriterCall)
    (rs : List CallResult) (w : DiskWriter) (h : (DiskWriter.fromFileInfo info c faults).calls z (before ++ [d]) = (rs ++ [.err], w))
    (hok : ∀ r ∈ rs, r = .ok) :
    ∃ v v', (Writer.fromFileInfo info c).calls z before = .ok v ∧ (Writer.fromFileInfo info c).calls z (before ++ [d]) = .ok v' ∧
      v.file <+: w.disk.file ∧ w.disk.file <+: v'.file := by
  rw [calls_split] at h
  injection h with h1 h2
  obtain ⟨h1, h3⟩ := List.append_inj' h1 rfl
  have hb := calls_ok z before (DiskWriter.fromFileInfo info c faults) (by rw [h1]; exact hok)
  simp at h3
  have s := call_step z ((DiskWriter.fromFileInfo info c faults).calls z before).2 d
  obtain ⟨v', hv, p1, p2, -⟩ := s.torn h3
  rw [h2] at p1 p2
  refine ⟨_, v', hb, ?_, p1, p2⟩
  have app : ∀ (cs : List WriterCall) (u u' u'' : Writer), u.calls z cs = .ok u' → u'.call z d = .ok u'' → u.calls z (cs ++ [d]) = .ok u'' := by
    intro cs
    induction cs with
    | nil =>
      intro u u' u'' e1 e2
      simp only [Writer.calls, Out.ok.injEq] at e1
      subst e1
      simp [Writer.calls, e2]
    | cons x cs ih =>
      intro u u' u'' e1 e2
      simp only [Writer.calls, Out.bind_eq_ok] at e1
      obtain ⟨u1, e0, e1⟩ := e1
      simp only [List.cons_append, Writer.calls, e0, Out.ok_bind]
      exact ih u1 u' u'' e1 e2
  exact app before _ _ _ hb hv

/-- C78: a file that was left by a first error reads as a beginning of the complete file. -/
theorem C78_readable (z : Zlib) (c : CompressionType) (info : FileInfo) (faults : Nat → Option Nat) (before after : List WriterCall) (d : WriterCall)
    (rs : List CallResult) (w : DiskWriter) (h : (DiskWriter.fromFileInfo info c faults).calls z (before ++ [d]) = (rs ++ [.err], w))
    (hok : ∀ r ∈ rs, r = .ok) (v : Writer) (hv : (Writer.fromFileInfo info c).calls z (before ++ d :: after) = .ok v)
    (es : List Element) (r : End) (hr : ReadsElements z v.file es r) :
    ∃ es' r', ReadsElements z w.disk.file es' r' ∧ es' <+: es ∧ (r' = .done ∨ r' = .panic) := by
  obtain ⟨u, u', -, h2, -, h4⟩ := C78_first_error z c info faults before d rs w h hok
  have e : before ++ d :: after = (before ++ [d]) ++ after := by simp
  rw [e] at hv
  obtain ⟨u1, h1, h3⟩ := calls_append hv
  rw [h2] at h1
  injection h1 with h1
  subst h1
  have hp : u'.file <+: v.file := by
    obtain ⟨own, blocks, did⟩ := calls_did after (w := u') (by
      obtain ⟨o, b, did⟩ := calls_did (before ++ [d]) accInv_new h2
      exact did.inv) h3
    rw [did.file]
    exact ⟨_, rfl⟩
  have hp' := h4.trans hp
  obtain ⟨es', r', a1, a2, a3⟩ := C10_truncated_prefix z v.file w.disk.file.length es r hr
  rw [← List.prefix_iff_eq_take.1 hp'] at a1
  exact ⟨es', r', a1, a2, a3⟩

/-- C78, the writer does not keep what it failed to write: after a `close` that returned an error, another `close` returns
success and leaves the file as it is, without the elements. -/
theorem C78_retry (z : Zlib) (w w' w'' : DiskWriter) (r : CallResult) (h : w.close z = (.err, w')) (h' : w'.close z = (r, w'')) :
    r = .ok ∧ w''.disk = w'.disk := by
  have s := call_step z w .close
  simp only [DiskWriter.call, h] at s
  obtain ⟨v, hv, -, -, ha, -⟩ := s.torn rfl
  have hv' : w'.acc.elements = [] := by
    rw [ha]
    simp only [Writer.call, Out.ok.injEq] at hv
    rw [← hv]
    unfold Writer.close Accumulator.take
    simp only
    split <;> rfl
  unfold DiskWriter.close Accumulator.take at h'
  simp only [hv', List.isEmpty_nil, if_true, Prod.mk.injEq] at h'
  exact ⟨h'.1.symm, by rw [← h'.2]⟩

/-! ## Examples -/

theorem exDisk_block (z : Zlib) (c : CompressionType) (info : FileInfo) (f : Bytes) (acc : Accumulator) (b : FileBlock) (k : Nat) (hk : k = 0 ∨ 4 ≤ k) :
    DiskWriter.writeFileBlock z ⟨info, c, ⟨fun i => if i = 3 then some 0 else none, f, k⟩, acc⟩ b =
      (.ok, ⟨info, c, ⟨fun i => if i = 3 then some 0 else none, f ++ blockBytes z c [b], k + 3⟩, acc⟩) := by
  have h0 : (if k = 3 then some 0 else none : Option Nat) = none := if_neg (by omega)
  have h1 : (if k + 1 = 3 then some 0 else none : Option Nat) = none := if_neg (by omega)
  have h2 : (if k + 1 + 1 = 3 then some 0 else none : Option Nat) = none := if_neg (by omega)
  simp only [DiskWriter.writeFileBlock, DiskWriter.writeBlob, Disk.writeAll, h0, h1, h2, blockBytes, blobBytes]
  simp

theorem exDisk_fails (z : Zlib) (c : CompressionType) (info : FileInfo) (f : Bytes) (acc : Accumulator) (b : FileBlock) :
    DiskWriter.writeFileBlock z ⟨info, c, ⟨fun i => if i = 3 then some 0 else none, f, 3⟩, acc⟩ b =
      (.err, ⟨info, c, ⟨fun i => if i = 3 then some 0 else none, f, 4⟩, acc⟩) := by
  simp [DiskWriter.writeFileBlock, DiskWriter.writeBlob, Disk.writeAll]

/-- The three writes of the header work, the first write of the data fails: `close` reports it, a second `close` does not, and the file
holds the header only. -/
example (z : Zlib) (c : CompressionType) (info : FileInfo) (n : Node) :
    ∃ w, (DiskWriter.fromFileInfo info c (fun i => if i = 3 then some 0 else none)).calls z [.header, .element (.node n), .close, .close] =
        ([.ok, .ok, .err, .ok], w) ∧ w.disk.file = blockBytes z c [.header info] ∧ w.disk.count = 4 := by
  have h1 := exDisk_block z c info [] Accumulator.new (.header info) 0 (.inl rfl)
  have h2 := exDisk_fails z c info ([] ++ blockBytes z c [.header info]) ⟨8000, [], .nodes⟩ (.data [.node n])
  refine ⟨⟨info, c, ⟨fun i => if i = 3 then some 0 else none, blockBytes z c [.header info], 4⟩, ⟨8000, [], .nodes⟩⟩, ?_, rfl, rfl⟩
  simp only [DiskWriter.calls, DiskWriter.call, DiskWriter.writeHeader, DiskWriter.fromFileInfo]
  simp only [h1]
  simp only [DiskWriter.writeElement, Accumulator.new, Accumulator.add, Accumulator.push, List.nil_append, List.length_singleton, OfNat.one_ne_ofNat, if_false]
  simp only [DiskWriter.close, Accumulator.take, List.isEmpty_cons, Bool.false_eq_true, if_false, DiskWriter.writeElements, Nat.zero_add]
  rw [List.nil_append] at h2
  simp only [h2, List.isEmpty_nil, if_true]

/-- Without faults all calls succeed. -/
example (z : Zlib) (c : CompressionType) (info : FileInfo) (n : Node) :
    ∃ w, (DiskWriter.fromFileInfo info c (fun _ => none)).calls z [.header, .element (.node n), .close] = ([.ok, .ok, .ok], w) := ⟨_, rfl⟩

end OsmIo
