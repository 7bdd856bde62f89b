import Verif.Spec.WriterCalls
import Verif.Props.ParallelWriter
/-!
# Any sequence of calls on a sequential writer (C75)
-/
namespace OsmIo
open Spec

theorem Spec.Merged.append {α : Type} {a b c a' b' c' : List α} (h : Merged a b c) (h' : Merged a' b' c') :
    Merged (a ++ a') (b ++ b') (c ++ c') := by
  induction h with
  | nil => exact h'
  | left _ ih => exact .left ih
  | right _ ih => exact .right ih

theorem Spec.Merged.lefts {α : Type} (a : List α) : Merged a [] a := by
  induction a with
  | nil => exact .nil
  | cons x a ih => exact .left ih

theorem Spec.Merged.mem {α : Type} {a b c : List α} (h : Merged a b c) (x : α) : x ∈ c ↔ x ∈ a ∨ x ∈ b := by
  induction h with
  | nil => simp
  | left _ ih => simp [ih, or_assoc]
  | right _ ih => simp [ih]; tauto

/-- What a sequence of calls has written since `w`: own blocks and blocks given as such. -/
structure Did (z : Zlib) (w : Writer) (cs : List WriterCall) (w' : Writer) (own : List (List Element)) (blocks : List FileBlock) : Prop where
  inv : AccInv w'.acc
  file : w'.file = w.file ++ blockBytes z w.compression blocks
  comp : w'.compression = w.compression
  info : w'.file_info = w.file_info
  merged : Merged (own.map .data) (batches w.file_info cs) blocks
  content : own.flatten ++ w'.acc.elements = w.acc.elements ++ singles cs
  good : ∀ b ∈ own, GoodBlock b

theorem close_did {z : Zlib} {w : Writer} (h : AccInv w.acc) :
    ∃ own, Did z w [.close] (w.close z) own (own.map .data) ∧ (w.close z).acc.elements = [] := by
  unfold Writer.close Accumulator.take
  simp only
  have hi : AccInv { w.acc with elements := [] } := ⟨h.size, by simp, by simp⟩
  split
  · rename_i hn
    simp at hn
    exact ⟨[], ⟨hi, by simp [blockBytes], rfl, rfl, .nil, by simp [hn, singles], by simp⟩, rfl⟩
  · exact ⟨[w.acc.elements], ⟨hi, by rw [writeElements_file]; rfl, rfl, rfl, .left .nil, by simp [singles, writeElements_rest],
      by simpa using good_elements h⟩, rfl⟩

theorem writeFileBlock_file (z : Zlib) (w : Writer) (b : FileBlock) :
    (w.writeFileBlock z b).file = w.file ++ blockBytes z w.compression [b] := by
  simp [Writer.writeFileBlock, Writer.writeBlob, blockBytes]

theorem block_did {z : Zlib} {w : Writer} (h : AccInv w.acc) {c : WriterCall} {b : FileBlock} (hb : batches w.file_info [c] = [b])
    (hs : singles [c] = []) : Did z w [c] (w.writeFileBlock z b) [] [b] where
  inv := h
  file := writeFileBlock_file z w b
  comp := rfl
  info := rfl
  merged := by rw [hb]; exact .right .nil
  content := by rw [hs, List.append_nil]; rfl
  good := by simp

theorem call_did {z : Zlib} {w w' : Writer} (h : AccInv w.acc) {c : WriterCall} (hw : w.call z c = .ok w') :
    ∃ own blocks, Did z w [c] w' own blocks := by
  cases c with
  | element e =>
    obtain ⟨bs, hb⟩ := writeElement_wrote h hw
    exact ⟨bs, bs.map .data, hb.inv, hb.file, hb.comp, hb.info, .lefts _, by simpa [singles] using hb.content, hb.good⟩
  | header =>
    simp only [Writer.call] at hw
    injection hw with hw
    subst hw
    exact ⟨[], _, block_did h rfl rfl⟩
  | block b =>
    simp only [Writer.call] at hw
    injection hw with hw
    subst hw
    exact ⟨[], _, block_did h rfl rfl⟩
  | elements es =>
    simp only [Writer.call] at hw
    injection hw with hw
    subst hw
    exact ⟨[], _, block_did h rfl rfl⟩
  | close =>
    simp only [Writer.call] at hw
    injection hw with hw
    subst hw
    obtain ⟨own, h1, _⟩ := close_did (z := z) h
    exact ⟨own, _, h1⟩

theorem singles_append (a b : List WriterCall) : singles (a ++ b) = singles a ++ singles b := by
  induction a with
  | nil => rfl
  | cons c a ih => cases c <;> simp [singles, ih]

theorem batches_append (i : FileInfo) (a b : List WriterCall) : batches i (a ++ b) = batches i a ++ batches i b := by
  induction a with
  | nil => rfl
  | cons c a ih => cases c <;> simp [batches, ih]

theorem Did.append {z : Zlib} {w w' w'' : Writer} {a b : List WriterCall} {o o' : List (List Element)} {bs bs' : List FileBlock}
    (h : Did z w a w' o bs) (h' : Did z w' b w'' o' bs') : Did z w (a ++ b) w'' (o ++ o') (bs ++ bs') where
  inv := h'.inv
  file := by rw [h'.file, h.file, h.comp, blockBytes_append]; simp
  comp := by rw [h'.comp, h.comp]
  info := by rw [h'.info, h.info]
  merged := by
    have := h'.merged
    rw [h.info] at this
    rw [batches_append, List.map_append]; exact h.merged.append this
  content := by rw [List.flatten_append, List.append_assoc, h'.content, ← List.append_assoc, h.content, singles_append]; simp
  good := by
    intro b hb
    rcases List.mem_append.1 hb with hb | hb
    · exact h.good b hb
    · exact h'.good b hb

theorem calls_did {z : Zlib} (cs : List WriterCall) {w w' : Writer} (h : AccInv w.acc) (hw : w.calls z cs = .ok w') :
    ∃ own blocks, Did z w cs w' own blocks := by
  induction cs generalizing w with
  | nil =>
    simp [Writer.calls] at hw; subst hw
    exact ⟨[], [], h, by simp [blockBytes], rfl, rfl, .nil, by simp [singles], by simp⟩
  | cons c cs ih =>
    unfold Writer.calls at hw
    rw [Out.bind_eq_ok] at hw
    obtain ⟨w1, h1, hw⟩ := hw
    obtain ⟨o1, b1, d1⟩ := call_did h h1
    obtain ⟨o2, b2, d2⟩ := ih d1.inv hw
    exact ⟨_, _, d1.append d2⟩

theorem calls_append {z : Zlib} {a b : List WriterCall} {w w' : Writer} (h : w.calls z (a ++ b) = .ok w') :
    ∃ w1, w.calls z a = .ok w1 ∧ w1.calls z b = .ok w' := by
  induction a generalizing w with
  | nil => exact ⟨w, rfl, h⟩
  | cons c a ih =>
    simp only [List.cons_append, Writer.calls, Out.bind_eq_ok] at h ⊢
    obtain ⟨w2, h1, h2⟩ := h
    obtain ⟨w3, h3, h4⟩ := ih h2
    exact ⟨w3, ⟨w2, h1, h3⟩, h4⟩

/-- C75. After any sequence of calls that ends with `close`, the file holds the blocks given as such (by `write_header`,
`write_file_block` and `write_elements`) in their order, and the elements given one by one in theirs, in blocks of one type
of at most 8000. -/
theorem C75_file (z : Zlib) (c : CompressionType) (info : FileInfo) (cs : List WriterCall) (w : Writer)
    (hw : (Writer.fromFileInfo info c).calls z (cs ++ [.close]) = .ok w) :
    ∃ (own : List (List Element)) (blocks : List FileBlock), w.file = blockBytes z c blocks ∧ Merged (own.map .data) (batches info cs) blocks ∧
      own.flatten = singles cs ∧ ∀ b ∈ own, GoodBlock b := by
  obtain ⟨w', hw', hc⟩ := calls_append hw
  obtain ⟨o1, b1, d1⟩ := calls_did cs accInv_new hw'
  simp only [Writer.calls, Writer.call, Out.ok_bind] at hc
  injection hc with hc
  subst hc
  obtain ⟨o2, d2, he⟩ := close_did (z := z) d1.inv
  have d := d1.append d2
  refine ⟨o1 ++ o2, b1 ++ o2.map .data, ?_, ?_, ?_, d.good⟩
  · rw [d.file]; rfl
  · have := d.merged
    rwa [batches_append, show batches _ [.close] = [] from rfl, List.append_nil] at this
  · have := d.content
    rw [he, singles_append, show singles [.close] = [] from rfl, List.append_nil, List.append_nil] at this
    exact this

theorem Spec.Merged.eq_right {α : Type} {b c : List α} (h : Merged [] b c) : c = b := by
  generalize ha : ([] : List α) = a at h
  induction h with
  | nil => rfl
  | left _ _ => simp at ha
  | right _ ih => rw [ih ha]

theorem merged_data {own : List (List Element)} {bs blocks : List FileBlock} (h : Merged (own.map .data) bs blocks)
    (hb : ∀ b ∈ bs, ∃ es, b = .data es) : ∃ lists : List (List Element), blocks = lists.map .data := by
  have : ∀ b ∈ blocks, ∃ es, b = FileBlock.data es := by
    intro b hm
    rcases (h.mem b).1 hm with hm | hm
    · obtain ⟨es, _, rfl⟩ := List.mem_map.1 hm
      exact ⟨es, rfl⟩
    · exact hb b hm
  clear h hb
  induction blocks with
  | nil => exact ⟨[], rfl⟩
  | cons b blocks ih =>
    obtain ⟨es, rfl⟩ := this b (by simp)
    obtain ⟨l, rfl⟩ := ih fun b hb => this b (by simp [hb])
    exact ⟨es :: l, rfl⟩

/-- C75. Reading the file back gives exactly these elements: those given one by one, and those given in lists or blocks, each in
the order of the calls. -/
theorem C75_reads_back (z : Zlib) (hz : z.Lossless) (c : CompressionType) (info : FileInfo) (cs : List WriterCall) (w : Writer)
    (hn : ¬ EmptyInfo info) (hh : HeaderFits z c info) (hfit : RunsFit z c (singles cs))
    (hb : ∀ b ∈ batches info cs, ∃ es, b = .data es ∧ Homogeneous es ∧ Fits z c es ∧ ∀ e ∈ es, Exact e)
    (hx : ∀ e ∈ singles cs, Exact e) (hw : (Writer.fromFileInfo info c).calls z (.header :: (cs ++ [.close])) = .ok w) :
    ∃ own lists : List (List Element), Merged (own.map .data) (batches info cs) (lists.map .data) ∧ own.flatten = singles cs ∧
      ∀ es r, ReadsElements z w.file es r ↔ es = lists.flatten ∧ r = .done := by
  simp only [Writer.calls, Writer.call, Out.ok_bind] at hw
  obtain ⟨w', hw', hc⟩ := calls_append hw
  obtain ⟨o1, b1, d1⟩ := calls_did cs (w := (Writer.fromFileInfo info c).writeHeader z) accInv_new hw'
  simp only [Writer.calls, Writer.call, Out.ok_bind] at hc
  injection hc with hc
  subst hc
  obtain ⟨o2, d2, he⟩ := close_did (z := z) d1.inv
  have d := d1.append d2
  have hm := d.merged
  rw [batches_append, show batches _ [.close] = [] from rfl, List.append_nil,
    show ((Writer.fromFileInfo info c).writeHeader z).file_info = info from rfl] at hm
  have h3 : (o1 ++ o2).flatten = singles cs := by
    have := d.content
    rw [he, singles_append, show singles [.close] = [] from rfl, List.append_nil, List.append_nil] at this
    exact this
  obtain ⟨lists, hl⟩ := merged_data hm fun b hbb => (hb b hbb).imp fun _ h => h.1
  rw [hl] at hm
  refine ⟨o1 ++ o2, lists, hm, h3, fun es r => ?_⟩
  have hfile : (w'.close z).file = blockBytes z c (.header info :: lists.map .data) := by
    rw [d.file, hl]
    simp [Writer.writeHeader, Writer.writeFileBlock, Writer.writeBlob, Writer.fromFileInfo, blockBytes]
  have hsub : ∀ b ∈ o1 ++ o2, b <:+: singles cs := by
    intro b hb
    rw [← h3]
    obtain ⟨s, t, h⟩ := List.append_of_mem hb
    rw [h]
    exact ⟨s.flatten, t.flatten, by simp⟩
  have hall : ∀ b ∈ lists, Homogeneous b ∧ Fits z c b ∧ ∀ e ∈ b, Exact e := by
    intro b hbb
    rcases (hm.mem (.data b)).1 (List.mem_map_of_mem hbb) with h | h
    · obtain ⟨b', hb', h⟩ := List.mem_map.1 h
      injection h with h
      subst h
      exact ⟨(d.good _ hb').1, hfit _ (hsub _ hb') (d.good _ hb').2, fun e he => hx e ((hsub _ hb').subset he)⟩
    · obtain ⟨es, h1, h2⟩ := hb _ h
      injection h1 with h1
      subst h1
      exact h2
  rw [hfile, reads_written_blocks hz hn hh (fun b hb => (hall b hb).1) fun b hb => (hall b hb).2.1]
  rw [map_quant_exact]
  intro e he
  obtain ⟨b, hbb, hbe⟩ := List.mem_flatten.1 he
  exact (hall b hbb).2.2 e hbe

/-- C75. A block given as such overtakes fewer than 8000 of the elements given one by one before it: what precedes it in the
file are the earlier blocks and all but fewer than 8000 of those elements. -/
theorem C75_overtakes (z : Zlib) (c : CompressionType) (info : FileInfo) (before after : List WriterCall) (call : WriterCall)
    (b : FileBlock) (hcall : batches info [call] = [b]) (w : Writer)
    (hw : (Writer.fromFileInfo info c).calls z (before ++ call :: after) = .ok w) :
    ∃ (own : List (List Element)) (first rest : List FileBlock) (n : Nat), w.file = blockBytes z c (first ++ b :: rest) ∧ Merged (own.map .data) (batches info before) first ∧
      own.flatten = (singles before).take n ∧ (singles before).length < n + 8000 := by
  obtain ⟨w1, hw1, hw⟩ := calls_append hw
  obtain ⟨o1, b1, d1⟩ := calls_did before accInv_new hw1
  obtain ⟨w2, hw2, hw⟩ : ∃ w2, w1.call z call = .ok w2 ∧ w2.calls z after = .ok w := by
    simpa only [Writer.calls, Out.bind_eq_ok] using hw
  have hi : w1.file_info = info := d1.info
  have e2 : w2 = w1.writeFileBlock z b := by
    cases call <;> simp only [Writer.call, batches, Writer.writeElements, Writer.writeHeader, List.cons.injEq, and_true,
      List.nil_eq, List.cons_ne_nil, Out.ok.injEq, hi] at hcall hw2
    all_goals rw [← hw2, ← hcall]
  obtain ⟨o2, b2, d2⟩ := calls_did after (w := w2) (by rw [e2]; exact d1.inv) hw
  refine ⟨o1, b1, b2, o1.flatten.length, ?_, d1.merged, ?_, ?_⟩
  · have e1 : w2.compression = c := by rw [e2]; exact d1.comp
    rw [d2.file, e1, e2, writeFileBlock_file, d1.comp, d1.file]
    show [] ++ blockBytes z c b1 ++ blockBytes z c [b] ++ blockBytes z c b2 = _
    rw [List.nil_append, ← blockBytes_append, ← blockBytes_append]
    simp
  · have := d1.content
    rw [show (Writer.fromFileInfo info c).acc.elements = [] from rfl, List.nil_append] at this
    rw [← this, List.take_left]
  · have := congrArg List.length d1.content
    rw [show (Writer.fromFileInfo info c).acc.elements = [] from rfl, List.nil_append, List.length_append] at this
    have := d1.inv.len
    omega

/-- C75. Copying a file block by block, by giving each block the reader yields to `write_file_block`, is always accepted and gives
a file with the same elements in the same order. -/
theorem C75_copy (z : Zlib) (hz : z.Lossless) (c : CompressionType) (file : Bytes) (info i : FileInfo) (lists : List (List Element))
    (hf : HasBlocks z file (.header i :: lists.map .data)) (hn : ¬ EmptyInfo i) (hh : HeaderFits z c i)
    (hl : ∀ es ∈ lists, Homogeneous es ∧ Fits z c es ∧ ∀ e ∈ es, Exact e) :
    ∃ w, (Writer.fromFileInfo info c).calls z ((FileBlock.header i :: lists.map .data).map .block ++ [.close]) = .ok w ∧
      ∀ es r, ReadsElements z w.file es r ↔ ReadsElements z file es r := by
  have hcalls : ∀ (bs : List FileBlock) (w : Writer), w.acc.elements = [] → ∃ w', w.calls z (bs.map .block ++ [.close]) = .ok w' ∧
      w'.file = w.file ++ blockBytes z w.compression bs := by
    intro bs
    induction bs with
    | nil => exact fun w hw => ⟨_, rfl, by simp [Writer.close, Accumulator.take, hw, blockBytes]⟩
    | cons b bs ih =>
      intro w hw
      obtain ⟨w', h1, h2⟩ := ih (w.writeFileBlock z b) hw
      refine ⟨w', h1, ?_⟩
      rw [h2, writeFileBlock_file, List.append_assoc]
      exact congrArg (w.file ++ ·) (blockBytes_append z w.compression [b] bs).symm
  obtain ⟨w, hw, h1⟩ := hcalls (FileBlock.header i :: lists.map .data) (Writer.fromFileInfo info c) rfl
  refine ⟨w, hw, ?_⟩
  rw [show w.file = blockBytes z c (FileBlock.header i :: lists.map .data) from h1]
  obtain ⟨fuel, hf⟩ := hf
  intro es r
  rw [reads_written_blocks hz hn hh (fun b hb => (hl b hb).1) (fun b hb => (hl b hb).2.1), reads_iff hf (by simp)]
  rw [map_quant_exact (fun e he => by
    obtain ⟨b, hb, he⟩ := List.mem_flatten.1 he
    exact (hl b hb).2.2 e he)]
  have hd : ∀ l : List (List Element), stream (l.map .data) .done = (l.flatten, .done) := by
    intro l
    induction l with
    | nil => rfl
    | cons b l ih => simp [stream, ih]
  simp only [streamAll, hd, Prod.mk.injEq]

/-- C75. Which sequences are accepted does not depend on the blocks given as such or on `close`: those in which the
elements given one by one are nodes, then ways, then relations; any other makes the writer panic. -/
theorem C75_accepts (z : Zlib) (c : CompressionType) (info : FileInfo) (cs : List WriterCall) :
    ((∃ w, (Writer.fromFileInfo info c).calls z cs = .ok w) ↔ Layered (singles cs)) ∧
    (¬ Layered (singles cs) → (Writer.fromFileInfo info c).calls z cs = .panic) := by
  have key : ∀ (cs : List WriterCall) (w : Writer), (accepts w.acc.state (singles cs) = true ∧ ∃ w', w.calls z cs = .ok w') ∨
      (accepts w.acc.state (singles cs) = false ∧ w.calls z cs = .panic) := by
    intro cs
    induction cs with
    | nil => intro w; left; exact ⟨by cases w.acc.state <;> rfl, w, rfl⟩
    | cons a cs ih =>
      intro w
      cases a with
      | header =>
        have := ih (w.writeHeader z)
        have e : (w.writeHeader z).acc.state = w.acc.state := rfl
        simpa only [Writer.calls, Writer.call, Out.ok_bind, singles, e] using this
      | block b =>
        have := ih (w.writeFileBlock z b)
        have e : (w.writeFileBlock z b).acc.state = w.acc.state := rfl
        simpa only [Writer.calls, Writer.call, Out.ok_bind, singles, e] using this
      | elements es =>
        have := ih (w.writeElements z es)
        simpa only [Writer.calls, Writer.call, Out.ok_bind, singles, (writeElements_rest z w es).1] using this
      | close =>
        have := ih (w.close z)
        have e : (w.close z).acc.state = w.acc.state := by
          unfold Writer.close Accumulator.take
          simp only
          split <;> rfl
        simpa only [Writer.calls, Writer.call, Out.ok_bind, singles, e] using this
      | element e =>
        have step : ∀ r st, w.acc.add e = .ok r → r.2.state = st →
            accepts w.acc.state (singles (.element e :: cs)) = accepts st (singles cs) →
            (accepts w.acc.state (singles (.element e :: cs)) = true ∧ ∃ w', w.calls z (.element e :: cs) = .ok w') ∨
            (accepts w.acc.state (singles (.element e :: cs)) = false ∧ w.calls z (.element e :: cs) = .panic) := by
          intro r st hr hst hacc
          obtain ⟨w', hw', hacc'⟩ := writeElement_ok (z := z) hr
          have := ih w'
          rw [hacc', hst] at this
          rw [hacc]
          simpa [Writer.calls, Writer.call, hw'] using this
        have bad : w.acc.add e = .panic → accepts w.acc.state (singles (.element e :: cs)) = false →
            (accepts w.acc.state (singles (.element e :: cs)) = true ∧ ∃ w', w.calls z (.element e :: cs) = .ok w') ∨
            (accepts w.acc.state (singles (.element e :: cs)) = false ∧ w.calls z (.element e :: cs) = .panic) := by
          intro hr hacc
          right
          refine ⟨hacc, ?_⟩
          simp [Writer.calls, Writer.call, writeElement_panic hr]
        rcases hs : w.acc.state <;> rcases e with n | w' | r | _
        all_goals rw [hs] at step bad
        all_goals simp only [Accumulator.add, hs] at step bad
        · exact step _ .nodes rfl (by rw [push_state, hs]) rfl
        · exact step _ .ways rfl (by rw [push_state]) rfl
        · exact bad trivial rfl
        · exact step _ .nodes rfl hs rfl
        · exact bad trivial rfl
        · exact step _ .ways rfl (by rw [push_state, hs]) rfl
        · exact step _ .relations rfl (by rw [push_state]) rfl
        · exact step _ .ways rfl hs rfl
        · exact bad trivial rfl
        · exact bad trivial rfl
        · exact step _ .relations rfl (by rw [push_state, hs]) rfl
        · exact step _ .relations rfl hs rfl
  have := key cs (Writer.fromFileInfo info c)
  rw [show (Writer.fromFileInfo info c).acc.state = .nodes from rfl] at this
  have ha := accepts_nodes (singles cs)
  have hr : realOnes (singles cs) = singles cs := by
    clear this ha key
    induction cs with
    | nil => rfl
    | cons a cs ih =>
      cases a with
      | element e => simp only [singles, realOnes, List.filter_append, List.filter_filter, Bool.and_self] at ih ⊢; rw [ih]
      | header => exact ih
      | block b => exact ih
      | elements es => exact ih
      | close => exact ih
  rw [hr] at ha
  rcases this with ⟨h1, h2⟩ | ⟨h1, h2⟩
  · exact ⟨⟨fun _ => ha.mp h1, fun _ => h2⟩, fun hn => absurd (ha.mp h1) hn⟩
  · have hn : ¬ Layered (singles cs) := fun h => by rw [ha.mpr h] at h1; simp at h1
    exact ⟨⟨fun ⟨w, hw⟩ => by rw [h2] at hw; simp at hw, fun h => absurd h hn⟩, fun _ => h2⟩

/-- C75. Closing again adds nothing. -/
theorem C75_close_twice (z : Zlib) (c : CompressionType) (info : FileInfo) (cs : List WriterCall) (w w' : Writer)
    (h : (Writer.fromFileInfo info c).calls z (cs ++ [.close]) = .ok w)
    (h' : (Writer.fromFileInfo info c).calls z (cs ++ [.close, .close]) = .ok w') : w'.file = w.file := by
  obtain ⟨w1, h1, h⟩ := calls_append h
  obtain ⟨w2, h2, h'⟩ := calls_append h'
  rw [h1] at h2
  injection h2 with h2
  subst h2
  simp only [Writer.calls, Writer.call, Out.ok_bind, Out.ok.injEq] at h h'
  subst h h'
  obtain ⟨_, he⟩ : True ∧ (w1.close z).acc.elements = [] := ⟨trivial, by
    unfold Writer.close Accumulator.take
    simp only
    split <;> rfl⟩
  generalize w1.close z = w2 at he
  simp [Writer.close, Accumulator.take, he]

/-- C75. So the order of the calls is not the order of the file: a node given by itself and then another one in a list. -/
theorem C75_order_lost (z : Zlib) (c : CompressionType) (info : FileInfo) (a b : Node) :
    ∃ w, (Writer.fromFileInfo info c).calls z [.header, .element (.node a), .elements [.node b], .close] = .ok w ∧
      w.file = blockBytes z c [.header info, .data [.node b], .data [.node a]] := by
  refine ⟨_, rfl, ?_⟩
  simp [Writer.writeHeader, Writer.writeFileBlock, Writer.writeBlob, Writer.fromFileInfo, blockBytes, Writer.close, Writer.writeElements,
    Accumulator.take, Accumulator.new]

/-! ## Examples -/

/-- Elements one by one, a list, a block and a `close` in between. -/
def exCalls : List WriterCall :=
  [.element (.node exNode), .elements [.node { exNode with id := 8 }], .element .sentinel, .element (.way exWay), .close,
    .block (.data [.relation exRelation]), .element (.relation exRelation)]

theorem exCalls_fits : RunsFit exZ .zlib (singles exCalls) := by
  have h : ∀ run ∈ (singles exCalls).sublists, Fits exZ .zlib run := by
    unfold Fits
    decide +kernel
  exact fun run hr _ => h run (List.mem_sublists.mpr hr.sublist)

theorem exCalls_batches : ∀ b ∈ batches exInfo exCalls, ∃ es, b = .data es ∧ Homogeneous es ∧ Fits exZ .zlib es ∧ ∀ e ∈ es, Exact e := by
  have h1 : Exact (.node { exNode with id := 8 }) := exNode_exact
  have f1 : Fits exZ .zlib [.node { exNode with id := 8 }] := by unfold Fits; decide +kernel
  have f2 : Fits exZ .zlib [.relation exRelation] := by unfold Fits; decide +kernel
  intro b hb
  simp only [exCalls, batches, List.mem_cons, List.not_mem_nil, or_false] at hb
  rcases hb with rfl | rfl
  · exact ⟨_, rfl, .inl (by simp), f1, by simpa using h1⟩
  · exact ⟨_, rfl, .inr (.inr (by simp)), f2, by simpa using exRelation_exact⟩

theorem exCalls_layered : Layered (singles exCalls) :=
  ⟨[.node exNode], [.way exWay], [.relation exRelation], rfl, by simp, by simp, by simp, by simp⟩

/-- The hypotheses of C75_file, C75_accepts and C75_reads_back are met. -/
example : ∃ w, (Writer.fromFileInfo exInfo .zlib).calls exZ (.header :: (exCalls ++ [.close])) = .ok w ∧
    ∃ own lists : List (List Element), own.flatten = [.node exNode, .way exWay, .relation exRelation] ∧
      Merged (own.map FileBlock.data) [.data [.node { exNode with id := 8 }], .data [.relation exRelation]] (lists.map FileBlock.data) ∧
      ReadsElements exZ w.file lists.flatten .done := by
  obtain ⟨w, hw⟩ := (C75_accepts exZ .zlib exInfo (.header :: (exCalls ++ [WriterCall.close]))).1.mpr exCalls_layered
  obtain ⟨own, lists, h1, h2, h3⟩ := C75_reads_back exZ exZ_lossless .zlib exInfo exCalls w exInfo_nonempty exInfo_fits exCalls_fits
    exCalls_batches (by simpa [exCalls, singles, realOnes, Element.isSentinel] using ⟨exNode_exact, exWay_exact, exRelation_exact⟩) hw
  exact ⟨w, hw, own, lists, h2, h1, (h3 _ _).mpr ⟨rfl, rfl⟩⟩

/-- The hypotheses of C75_copy are met by a file of the writer. -/
example : ∃ (file : Bytes) (i : FileInfo) (lists : List (List Element)), lists.flatten.length = 2 ∧
    HasBlocks exZ file (.header i :: lists.map .data) ∧ ¬ EmptyInfo i ∧ HeaderFits exZ .uncompressed i ∧
    ∀ es ∈ lists, Homogeneous es ∧ Fits exZ .uncompressed es ∧ ∀ e ∈ es, Exact e := by
  have hom : ∀ es ∈ [[Element.node exNode], [.way exWay]], Homogeneous es := by
    intro es he
    simp only [List.mem_cons, List.not_mem_nil, or_false] at he
    rcases he with rfl | rfl
    · exact .inl (by simp)
    · exact .inr (.inl (by simp))
  have hx : ∀ es ∈ [[Element.node exNode], [.way exWay]], ∀ e ∈ es, Exact e := by
    intro es he
    simp only [List.mem_cons, List.not_mem_nil, or_false] at he
    rcases he with rfl | rfl
    · simpa using exNode_exact
    · simpa using exWay_exact
  have hf : ∀ es ∈ [[Element.node exNode], [.way exWay]], Fits exZ .zlib es := by unfold Fits; decide +kernel
  have hf' : ∀ es ∈ [[Element.node exNode], [.way exWay]], Fits exZ .uncompressed es := by unfold Fits; decide +kernel
  have h := hasBlocks_written exZ_lossless exInfo_nonempty exInfo_fits hom hf
  refine ⟨blockBytes exZ .zlib (.header exInfo :: [[Element.node exNode], [.way exWay]].map FileBlock.data),
    fromHeaderBlock (toHeaderBlock exInfo), [[.node exNode], [.way exWay]], rfl, ?_, ?_, ?_, fun es he => ⟨hom es he, hf' es he, hx es he⟩⟩
  · rwa [show ([[Element.node exNode], [.way exWay]].map fun b => FileBlock.data (b.map Element.quant)) =
      [[Element.node exNode], [.way exWay]].map FileBlock.data from List.map_congr_left fun b hb => by
        rw [map_quant_exact (hx b hb)]] at h
  · unfold EmptyInfo; decide +kernel
  · exact ⟨by decide +kernel, by decide +kernel⟩

end OsmIo
