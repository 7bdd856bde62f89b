import Verif.Lemmas.File
/-! # Sequential writer -/
set_option linter.unusedSimpArgs false
set_option linter.flexible false
namespace OsmIo
open Wire Spec

/-- Kind of element collected in a state. -/
def AccState.holds : AccState → Element → Prop
  | .nodes, e => ∃ n, e = .node n
  | .ways, e => ∃ w, e = .way w
  | .relations, e => ∃ r, e = .relation r

theorem homogeneous_of_holds {s : AccState} {es : List Element} (h : ∀ e ∈ es, s.holds e) : Spec.Homogeneous es := by
  cases s with
  | nodes => exact .inl h
  | ways => exact .inr (.inl h)
  | relations => exact .inr (.inr h)

structure AccInv (a : Accumulator) : Prop where
  size : a.block_size = 8000
  len : a.elements.length < 8000
  kind : ∀ e ∈ a.elements, a.state.holds e

theorem accInv_new : AccInv Accumulator.new := ⟨rfl, by simp [Accumulator.new], by simp [Accumulator.new]⟩

/-- What `add` does: possibly a good block, the rest stays. -/
structure AddOk (a : Accumulator) (e : Element) (block : Option (List Element)) (a' : Accumulator) : Prop where
  inv : AccInv a'
  good : ∀ b ∈ block, GoodBlock b
  content : (block.getD []) ++ a'.elements = a.elements ++ realOnes [e]

theorem push_ok {a : Accumulator} (h : AccInv a) (e : Element) (hk : a.state.holds e) :
    AddOk a e (a.push e).1 (a.push e).2 := by
  have hr : realOnes [e] = [e] := by
    cases hs : a.state <;> rw [hs] at hk <;> obtain ⟨x, rfl⟩ := hk <;> rfl
  have hall : ∀ x ∈ a.elements ++ [e], a.state.holds x := by
    intro x hx
    simp at hx
    rcases hx with hx | rfl
    · exact h.kind x hx
    · exact hk
  unfold Accumulator.push
  simp only
  split
  · rename_i hl
    refine ⟨⟨h.size, by simp, by simp⟩, ?_, by simp [hr]⟩
    intro b hb
    simp at hb; subst hb
    exact ⟨homogeneous_of_holds hall, by rw [h.size] at hl; omega⟩
  · rename_i hl
    refine ⟨⟨h.size, ?_, hall⟩, by simp, by simp [hr]⟩
    have := h.len
    rw [h.size] at hl
    simp at hl ⊢; omega

theorem push_small {a : Accumulator} (h : AccInv a) (e : Element) (he : a.elements = []) :
    a.push e = (none, { a with elements := [e] }) := by
  unfold Accumulator.push
  simp [he, h.size]

theorem good_elements {a : Accumulator} (h : AccInv a) : GoodBlock a.elements :=
  ⟨homogeneous_of_holds h.kind, le_of_lt h.len⟩

theorem add_ok {a : Accumulator} (h : AccInv a) (e : Element) {r : Option (List Element) × Accumulator}
    (hr : a.add e = .ok r) : AddOk a e r.1 r.2 := by
  obtain ⟨bs, els, st⟩ := a
  have sw : ∀ st', st'.holds e → realOnes [e] = [e] → AddOk ⟨bs, els, st⟩ e (some els)
      (Accumulator.push ⟨bs, [], st'⟩ e).2 := by
    intro st' hk hre
    rw [push_small (a := ⟨bs, [], st'⟩) ⟨h.size, by simp, by simp⟩ e rfl]
    refine ⟨⟨h.size, by simp, by simpa using hk⟩, ?_, by simp [hre]⟩
    intro b hb; simp at hb; subst hb; exact good_elements h
  have sent : realOnes [e] = [] → AddOk ⟨bs, els, st⟩ e none ⟨bs, els, st⟩ := by
    intro hre; exact ⟨h, by simp, by simp [hre]⟩
  unfold Accumulator.add at hr
  split at hr <;> simp at hr <;> subst hr <;> simp at *
  all_goals subst_vars
  · exact push_ok h _ ⟨_, rfl⟩
  · exact sw .ways ⟨_, rfl⟩ rfl
  · exact sent rfl
  · exact push_ok h _ ⟨_, rfl⟩
  · exact sw .relations ⟨_, rfl⟩ rfl
  · exact sent rfl
  · exact push_ok h _ ⟨_, rfl⟩
  · exact sent rfl

theorem blockBytes_append (z : Zlib) (c : CompressionType) (a b : List FileBlock) :
    blockBytes z c (a ++ b) = blockBytes z c a ++ blockBytes z c b := by simp [blockBytes]

theorem writeElements_file (z : Zlib) (w : Writer) (es : List Element) :
    (w.writeElements z es).file = w.file ++ blockBytes z w.compression [.data es] := by
  simp [Writer.writeElements, Writer.writeFileBlock, Writer.writeBlob, blockBytes]

theorem writeElements_rest (z : Zlib) (w : Writer) (es : List Element) :
    (w.writeElements z es).acc = w.acc ∧ (w.writeElements z es).compression = w.compression ∧
    (w.writeElements z es).file_info = w.file_info := ⟨rfl, rfl, rfl⟩

/-- What has been written since `w`, in blocks. -/
structure Wrote (z : Zlib) (w : Writer) (es : List Element) (w' : Writer) (blocks : List (List Element)) : Prop where
  inv : AccInv w'.acc
  file : w'.file = w.file ++ blockBytes z w.compression (blocks.map .data)
  comp : w'.compression = w.compression
  info : w'.file_info = w.file_info
  content : blocks.flatten ++ w'.acc.elements = w.acc.elements ++ realOnes es
  good : ∀ b ∈ blocks, GoodBlock b

theorem writeElement_wrote {z : Zlib} {w w' : Writer} (h : AccInv w.acc) {e : Element}
    (hw : w.writeElement z e = .ok w') : ∃ blocks, Wrote z w [e] w' blocks := by
  unfold Writer.writeElement at hw
  rw [Out.bind_eq_ok] at hw
  obtain ⟨⟨block, acc⟩, ha, hw⟩ := hw
  have ok := add_ok h e ha
  cases block with
  | none =>
    simp at hw; subst hw
    exact ⟨[], ⟨ok.inv, by simp [blockBytes], rfl, rfl, by simpa using ok.content, by simp⟩⟩
  | some es =>
    simp only at hw
    have hw := (Out.ok.inj hw).symm
    subst hw
    exact ⟨[es], ⟨ok.inv, by rw [writeElements_file]; rfl, rfl, rfl,
      by rw [(writeElements_rest _ _ _).1]; simpa using ok.content,
      by simpa using ok.good es rfl⟩⟩

theorem writeAll_wrote {z : Zlib} (es : List Element) {w w' : Writer} (h : AccInv w.acc)
    (hw : w.writeAll z es = .ok w') : ∃ blocks, Wrote z w es w' blocks := by
  induction es generalizing w with
  | nil =>
    simp [Writer.writeAll] at hw; subst hw
    exact ⟨[], ⟨h, by simp [blockBytes], rfl, rfl, by simp [realOnes], by simp⟩⟩
  | cons e es ih =>
    unfold Writer.writeAll at hw
    rw [Out.bind_eq_ok] at hw
    obtain ⟨w1, h1, hw⟩ := hw
    obtain ⟨b1, ok1⟩ := writeElement_wrote h h1
    obtain ⟨b2, ok2⟩ := ih ok1.inv hw
    refine ⟨b1 ++ b2, ⟨ok2.inv, ?_, by rw [ok2.comp, ok1.comp], by rw [ok2.info, ok1.info], ?_, ?_⟩⟩
    · rw [ok2.file, ok1.file, ok1.comp, List.map_append, blockBytes_append]; simp
    · rw [List.flatten_append, List.append_assoc, ok2.content, ← List.append_assoc, ok1.content]
      simp [realOnes, List.filter_cons]
      split <;> simp
    · intro b hb
      simp at hb
      rcases hb with hb | hb
      · exact ok1.good b hb
      · exact ok2.good b hb

theorem close_wrote {z : Zlib} (es : List Element) {w w' : Writer} (h : AccInv w.acc) (he : w.acc.elements = [])
    (hw : w.writeAll z es = .ok w') :
    ∃ blocks : List (List Element), (w'.close z).file = w.file ++ blockBytes z w.compression (blocks.map .data) ∧
      blocks.flatten = realOnes es ∧ (∀ b ∈ blocks, GoodBlock b) ∧ (w'.close z).acc.elements = [] := by
  obtain ⟨bs, ok⟩ := writeAll_wrote es h hw
  have hc := ok.content
  rw [he] at hc
  simp at hc
  unfold Writer.close Accumulator.take
  simp only
  split
  · rename_i hn
    simp at hn
    exact ⟨bs, ok.file, by simpa [hn] using hc, ok.good, rfl⟩
  · refine ⟨bs ++ [w'.acc.elements], ?_, by simpa using hc, ?_, rfl⟩
    · rw [writeElements_file, ok.comp]
      simp only
      rw [ok.file, List.map_append, blockBytes_append]
      simp
    · intro b hb
      simp at hb
      rcases hb with hb | rfl
      · exact ok.good b hb
      · exact good_elements ok.inv

/-! ## Which streams are accepted -/

/-- Accepted streams (without sentinels) from a state. -/
def accepts : AccState → List Element → Bool
  | _, [] => true
  | .nodes, .node _ :: es => accepts .nodes es
  | .nodes, .way _ :: es => accepts .ways es
  | .ways, .way _ :: es => accepts .ways es
  | .ways, .relation _ :: es => accepts .relations es
  | .relations, .relation _ :: es => accepts .relations es
  | s, .sentinel :: es => accepts s es
  | _, _ => false

theorem writeElement_ok {z : Zlib} {w : Writer} {e : Element} {r} (ha : w.acc.add e = .ok r) :
    ∃ w', w.writeElement z e = .ok w' ∧ w'.acc = r.2 := by
  unfold Writer.writeElement
  rw [ha]
  obtain ⟨b, acc⟩ := r
  cases b with
  | none => exact ⟨_, rfl, rfl⟩
  | some es => exact ⟨_, rfl, rfl⟩

theorem writeElement_panic {z : Zlib} {w : Writer} {e : Element} (ha : w.acc.add e = .panic) :
    w.writeElement z e = .panic := by
  unfold Writer.writeElement
  rw [ha]; rfl

theorem push_state (a : Accumulator) (e : Element) : (a.push e).2.state = a.state := by
  unfold Accumulator.push; simp only; split <;> rfl

theorem writeAll_accepts {z : Zlib} (es : List Element) (w : Writer) :
    (accepts w.acc.state es = true ∧ ∃ w', w.writeAll z es = .ok w') ∨
    (accepts w.acc.state es = false ∧ w.writeAll z es = .panic) := by
  induction es generalizing w with
  | nil => left; exact ⟨by cases w.acc.state <;> rfl, w, rfl⟩
  | cons e es ih =>
    have step : ∀ r st, w.acc.add e = .ok r → r.2.state = st → accepts w.acc.state (e :: es) = accepts st es →
        (accepts w.acc.state (e :: es) = true ∧ ∃ w', w.writeAll z (e :: es) = .ok w') ∨
        (accepts w.acc.state (e :: es) = false ∧ w.writeAll z (e :: es) = .panic) := by
      intro r st hr hst hacc
      obtain ⟨w', hw', hacc'⟩ := writeElement_ok (z := z) hr
      have := ih w'
      rw [hacc', hst] at this
      rw [hacc]
      simpa [Writer.writeAll, hw'] using this
    have bad : w.acc.add e = .panic → accepts w.acc.state (e :: es) = false →
        (accepts w.acc.state (e :: es) = true ∧ ∃ w', w.writeAll z (e :: es) = .ok w') ∨
        (accepts w.acc.state (e :: es) = false ∧ w.writeAll z (e :: es) = .panic) := by
      intro hr hacc
      right
      refine ⟨hacc, ?_⟩
      simp [Writer.writeAll, writeElement_panic hr]
    rcases hs : w.acc.state <;> rcases e with n | w' | r | _
    all_goals rw [hs] at step bad
    all_goals simp only [Accumulator.add, hs] at step bad
    · exact step _ .nodes rfl (by rw [push_state, hs]) rfl
    · exact step _ .ways rfl (by rw [push_state]) rfl
    · exact bad trivial rfl
    · exact step _ .nodes rfl hs rfl
    · exact bad trivial rfl
    · exact step _ .ways rfl (by rw [push_state, hs]) rfl
    · exact step _ .relations rfl (by rw [push_state]) rfl
    · exact step _ .ways rfl hs rfl
    · exact bad trivial rfl
    · exact bad trivial rfl
    · exact step _ .relations rfl (by rw [push_state, hs]) rfl
    · exact step _ .relations rfl hs rfl

theorem accepts_relations (es : List Element) : accepts .relations es = true ↔ ∀ e ∈ realOnes es, ∃ r, e = .relation r := by
  induction es with
  | nil => simp [accepts, realOnes]
  | cons e es ih =>
    cases e <;> simp [accepts, realOnes, Element.isSentinel] at * <;> simpa using ih

theorem accepts_ways (es : List Element) : accepts .ways es = true ↔
    ∃ ws rs, realOnes es = ws ++ rs ∧ (∀ e ∈ ws, ∃ w, e = .way w) ∧ (∀ e ∈ rs, ∃ r, e = .relation r) := by
  induction es with
  | nil => simp [accepts, realOnes]
  | cons e es ih =>
    cases e with
    | node n =>
      simp only [accepts, Bool.false_eq_true, false_iff]
      rintro ⟨ws, rs, h, hw, hr⟩
      rw [show realOnes (.node n :: es) = .node n :: realOnes es from rfl] at h
      have : Element.node n ∈ ws ++ rs := by rw [← h]; simp
      simp at this
      rcases this with h' | h'
      · obtain ⟨_, h⟩ := hw _ h'; simp at h
      · obtain ⟨_, h⟩ := hr _ h'; simp at h
    | way w =>
      rw [show accepts .ways (.way w :: es) = accepts .ways es from rfl, ih,
        show realOnes (.way w :: es) = .way w :: realOnes es from rfl]
      constructor
      · rintro ⟨ws, rs, h, hw, hr⟩
        refine ⟨.way w :: ws, rs, by simp [h], ?_, hr⟩
        intro e he; simp at he
        rcases he with rfl | he
        · exact ⟨w, rfl⟩
        · exact hw e he
      · rintro ⟨ws, rs, h, hw, hr⟩
        cases ws with
        | nil =>
          simp at h
          obtain ⟨_, h'⟩ := hr (.way w) (by rw [← h]; simp)
          simp at h'
        | cons x ws =>
          simp at h
          exact ⟨ws, rs, h.2, fun e he => hw e (by simp [he]), hr⟩
    | relation r =>
      rw [show accepts .ways (.relation r :: es) = accepts .relations es from rfl, accepts_relations,
        show realOnes (.relation r :: es) = .relation r :: realOnes es from rfl]
      constructor
      · intro h
        refine ⟨[], .relation r :: realOnes es, by simp, by simp, ?_⟩
        intro e he; simp at he
        rcases he with rfl | he
        · exact ⟨r, rfl⟩
        · exact h e he
      · rintro ⟨ws, rs, h, hw, hr⟩
        cases ws with
        | nil =>
          simp at h
          intro e he
          exact hr e (by rw [← h]; simp [he])
        | cons x ws =>
          simp at h
          obtain ⟨_, h'⟩ := hw x (by simp)
          rw [← h.1] at h'; simp at h'
    | sentinel =>
      rw [show accepts .ways (.sentinel :: es) = accepts .ways es from rfl, ih,
        show realOnes (.sentinel :: es) = realOnes es from rfl]

theorem accepts_nodes (es : List Element) : accepts .nodes es = true ↔ Layered (realOnes es) := by
  induction es with
  | nil => simp [accepts, realOnes, Layered]
  | cons e es ih =>
    cases e with
    | node n =>
      rw [show accepts .nodes (.node n :: es) = accepts .nodes es from rfl, ih,
        show realOnes (.node n :: es) = .node n :: realOnes es from rfl]
      constructor
      · rintro ⟨ns, ws, rs, h, hn, hw, hr, hx⟩
        refine ⟨.node n :: ns, ws, rs, by simp [h], ?_, hw, hr, hx⟩
        intro e he; simp at he
        rcases he with rfl | he
        · exact ⟨n, rfl⟩
        · exact hn e he
      · rintro ⟨ns, ws, rs, h, hn, hw, hr, hx⟩
        cases ns with
        | nil =>
          exfalso
          have : Element.node n ∈ ws ++ rs := by simp at h; rw [← h]; simp
          simp at this
          rcases this with h' | h'
          · obtain ⟨_, h⟩ := hw _ h'; simp at h
          · obtain ⟨_, h⟩ := hr _ h'; simp at h
        | cons x ns =>
          simp at h
          exact ⟨ns, ws, rs, by simp [h.2], fun e he => hn e (by simp [he]), hw, hr, hx⟩
    | way w =>
      rw [show accepts .nodes (.way w :: es) = accepts .ways es from rfl, accepts_ways,
        show realOnes (.way w :: es) = .way w :: realOnes es from rfl]
      constructor
      · rintro ⟨ws, rs, h, hw, hr⟩
        refine ⟨[], .way w :: ws, rs, by simp [h], by simp, ?_, hr, by simp⟩
        intro e he; simp at he
        rcases he with rfl | he
        · exact ⟨w, rfl⟩
        · exact hw e he
      · rintro ⟨ns, ws, rs, h, hn, hw, hr, hx⟩
        cases ns with
        | cons x ns =>
          simp at h
          obtain ⟨_, h'⟩ := hn x (by simp)
          rw [← h.1] at h'; simp at h'
        | nil =>
          cases ws with
          | nil =>
            simp at h
            obtain ⟨_, h'⟩ := hr (.way w) (by rw [← h]; simp)
            simp at h'
          | cons x ws =>
            simp at h
            exact ⟨ws, rs, h.2, fun e he => hw e (by simp [he]), hr⟩
    | relation r =>
      simp only [accepts, Bool.false_eq_true, false_iff]
      rintro ⟨ns, ws, rs, h, hn, hw, hr, hx⟩
      rw [show realOnes (.relation r :: es) = .relation r :: realOnes es from rfl] at h
      cases ns with
      | cons x ns =>
        simp at h
        obtain ⟨_, h'⟩ := hn x (by simp)
        rw [← h.1] at h'; simp at h'
      | nil =>
        cases ws with
        | nil =>
          simp at h
          exact hx (by rw [← h]; simp) rfl
        | cons x ws =>
          simp at h
          obtain ⟨_, h'⟩ := hw x (by simp)
          rw [← h.1] at h'; simp at h'
    | sentinel =>
      rw [show accepts .nodes (.sentinel :: es) = accepts .nodes es from rfl, ih,
        show realOnes (.sentinel :: es) = realOnes es from rfl]

theorem writeAll_realOnes {z : Zlib} (es : List Element) (w : Writer) : w.writeAll z es = w.writeAll z (realOnes es) := by
  induction es generalizing w with
  | nil => rfl
  | cons e es ih =>
    cases e with
    | sentinel =>
      have : w.writeElement z .sentinel = .ok w := by
        unfold Writer.writeElement Accumulator.add
        rcases hs : w.acc.state <;> simp [hs]
      rw [show realOnes (.sentinel :: es) = realOnes es from rfl, ← ih]
      simp [Writer.writeAll, this]
    | node n =>
      rw [show realOnes (.node n :: es) = .node n :: realOnes es from rfl]
      simp only [Writer.writeAll, ih]
    | way n =>
      rw [show realOnes (.way n :: es) = .way n :: realOnes es from rfl]
      simp only [Writer.writeAll, ih]
    | relation n =>
      rw [show realOnes (.relation n :: es) = .relation n :: realOnes es from rfl]
      simp only [Writer.writeAll, ih]

end OsmIo
