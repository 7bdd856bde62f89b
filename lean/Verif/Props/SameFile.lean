import Verif.Props.ParallelMemory
import Verif.Props.ParallelIo
import Verif.Props.Pipelines
import Verif.Spec.SameFile
/-!
# C99: the parallel and the sequential writer make the same file
-/
set_option linter.unusedSimpArgs false
set_option linter.unusedVariables false
set_option linter.flexible false
namespace OsmIo
open Wire Spec

/-! ### The parallel writer: sorted elements give blocks that are as full as possible -/

/-- The last block is full, or the next element to be written has another type. -/
def LastFull (F : Nat) (blocks : List (List Element)) (rest : List Element) : Prop :=
  ∀ b ∈ blocks.getLast?, b.length = F ∨ ∃ e, rest.head? = some e ∧ ∀ f ∈ b, rank f ≠ rank e

theorem asFull_append {F : Nat} {a b : List (List Element)} (ha : AsFull F a) (hb : AsFull F b) (hl : LastFull F a b.flatten) : AsFull F (a ++ b) := by
  refine ⟨?_, List.isChain_append.mpr ⟨ha.2, hb.2, ?_⟩⟩
  · intro x hx
    rcases List.mem_append.mp hx with h | h
    · exact ha.1 x h
    · exact hb.1 x h
  · intro x hx y hy
    obtain ⟨b', rfl⟩ : ∃ b', b = y :: b' := by
      cases b with
      | nil => simp at hy
      | cons y' b' => simp at hy; exact ⟨b', by rw [hy]⟩
    obtain ⟨h1, -, h3⟩ := hb.1 y (by simp)
    obtain ⟨f, y', rfl⟩ := List.exists_cons_of_ne_nil (List.length_pos_iff.mp h1)
    rcases hl x hx with h | ⟨e, he, hr⟩
    · exact .inl h
    · right
      simp at he
      subst he
      intro u hu v hv
      have := h3 f (by simp) v hv
      have := hr u hu
      omega

theorem run_full {S : StdSort} {B F : Nat} (hF : 0 < F) (hB : F ≤ B + 1) (calls : List WriteCall) (hr : NoSentinel (submitted calls))
    (hs : Sorted (submitted calls)) (s : Orderer) (h : Orderer.run S B F {} calls = .ok s) : AsFull F s.blocks ∧ LastFull F s.blocks s.buffer := by
  induction calls using List.reverseRecOn generalizing s with
  | nil => simp [Orderer.run] at h; subst h; exact ⟨⟨by simp, .nil⟩, by simp [LastFull]⟩
  | append_singleton calls c ih =>
    rw [run_append, Out.bind_eq_ok] at h
    obtain ⟨t, ht, h⟩ := h
    simp only [run_cons, Out.bind_eq_ok] at h
    obtain ⟨s1, h1, h2⟩ := h
    simp [Orderer.run] at h2
    subst h2
    rw [submitted_append] at hr hs
    have hr0 : NoSentinel (submitted calls) := fun x hx => hr x (by simp [hx])
    have hs0 := (List.pairwise_append.mp hs).1
    obtain ⟨ih1, ih2⟩ := ih hr0 hs0 t ht
    have hcont := run_sorted calls hr0 hs0 t ht
    obtain ⟨-, rfl⟩ := exec_ok h1
    rw [← hcont, List.append_assoc] at hr hs
    have hrb : NoSentinel (t.buffer ++ submitted [c]) := fun x hx => hr x (by rw [List.mem_append]; exact .inr hx)
    have hsb : Sorted (t.buffer ++ submitted [c]) := (List.pairwise_append.mp hs).2.1
    have hl1 : LastFull F t.blocks (t.buffer ++ submitted [c]) := by
      intro b hb
      rcases ih2 b hb with h | ⟨e, he, hr⟩
      · exact .inl h
      · exact .inr ⟨e, by rw [List.head?_append, he]; rfl, hr⟩
    unfold Orderer.checkFull
    split
    · have e0 : ({ t with buffer := t.buffer ++ submitted [c] } : Orderer).flushTop S F =
          ({ t with buffer := t.buffer ++ submitted [c] } : Orderer).emit F := by
        unfold Orderer.flushTop
        simp only [sort_of_sorted S hrb hsb]
      rw [e0]
      simp only [Orderer.emit]
      rename_i hB'
      simp only at hB'
      have a1 := split_append F (t.buffer ++ submitted [c])
      have a2 := split_length F (t.buffer ++ submitted [c])
      have a3 := split_full F (t.buffer ++ submitted [c])
      have a4 := split_ne_nil hF (buf := t.buffer ++ submitted [c]) (by intro hn; simp [hn] at hB')
      have a5 := split_oneType F (t.buffer ++ submitted [c])
      generalize (splitFileBlock F (t.buffer ++ submitted [c])).1 = blk at *
      generalize (splitFileBlock F (t.buffer ++ submitted [c])).2 = rest at *
      have hone : AsFull F [blk] := by
        refine ⟨?_, .singleton _⟩
        intro b hb
        simp at hb
        subst hb
        exact ⟨List.length_pos_iff.mpr a4, a2, fun e he f hf => (sameType_rank e f).mp (a5 e he f hf)⟩
      refine ⟨asFull_append ih1 hone ?_, ?_⟩
      · intro b hb
        rcases hl1 b hb with h | ⟨e, he, hr⟩
        · exact .inl h
        · refine .inr ⟨e, ?_, hr⟩
          rw [← a1] at he
          obtain ⟨x, blk', rfl⟩ := List.exists_cons_of_ne_nil a4
          simpa using he
      · intro b hb
        simp at hb
        subst hb
        rcases a3 with h | h | ⟨f, e, hf, he, hty⟩
        · exact .inl h
        · left
          rw [h] at a1
          simp at a1
          rw [a1] at a2 ⊢
          omega
        · refine .inr ⟨e, he, ?_⟩
          intro u hu hre
          have hfm : f ∈ blk := List.mem_of_mem_head? hf
          have h1 := (sameType_rank u f).mp (a5 u hu f hfm)
          have : e.sameType f = true := (sameType_rank e f).mpr (by omega)
          rw [this] at hty
          simp at hty
    · exact ⟨ih1, hl1⟩

/-- The blocks of the parallel writer for sorted elements: the elements in their order, in blocks as full as possible. -/
theorem blocks_full {S : StdSort} {B F : Nat} (hF : 0 < F) (hB : F ≤ B + 1) {calls : List WriteCall} (hr : NoSentinel (submitted calls))
    (hs : Sorted (submitted calls)) {blocks : List (List Element)} (h : ParallelBlocks S B F calls blocks) :
    AsFull F blocks ∧ blocks.flatten = submitted calls := by
  refine ⟨?_, blocks_sorted hr hs h⟩
  obtain ⟨s, s', h1, h2, rfl⟩ := h
  obtain ⟨i1, i2⟩ := run_full hF hB calls hr hs s h1
  have hi := run_sorted calls hr hs s h1
  obtain ⟨new, e1, e2, e3⟩ := flushLoop_full hF h2
  have hsort : S.sort s.buffer = s.buffer := by
    apply sort_of_sorted
    · intro e he; apply hr; rw [← hi]; simp [he]
    · apply sorted_infix (a := s.blocks.flatten) (b := [])
      rw [← hi] at hs
      simpa using hs
  simp only at e1 e3
  rw [hsort] at e3
  rw [e1]
  exact asFull_append i1 e2 (by rw [e3]; exact i2)

/-! ### The sequential writer -/

/-- A run of elements of the kind being collected. -/
theorem writeAll_run {z : Zlib} {st : AccState} (es : List Element) (hk : ∀ e ∈ es, st.holds e) {w : Writer} (h : AccInv w.acc) (hst : w.acc.state = st) :
    ∃ (w' : Writer) (blocks : List (List Element)), w.writeAll z es = .ok w' ∧ AccInv w'.acc ∧ w'.acc.state = st ∧ w'.compression = w.compression ∧
      w'.file = w.file ++ blockBytes z w.compression (blocks.map .data) ∧
      blocks.flatten ++ w'.acc.elements = w.acc.elements ++ es ∧ ∀ b ∈ blocks, b.length = 8000 := by
  induction es generalizing w with
  | nil => exact ⟨w, [], rfl, h, hst, rfl, by simp [blockBytes], by simp, by simp⟩
  | cons e es ih =>
    have hke := hk e (by simp)
    have hadd : w.acc.add e = .ok (w.acc.push e) := by
      subst hst
      cases hs : w.acc.state <;> rw [hs] at hke <;> obtain ⟨x, rfl⟩ := hke <;> simp [Accumulator.add, hs]
    have hok := push_ok h e (hst ▸ hke)
    have hst' : (w.acc.push e).2.state = st := by rw [push_state, hst]
    have hfull : ∀ b, (w.acc.push e).1 = some b → b.length = 8000 ∧ b = w.acc.elements ++ [e] ∧ (w.acc.push e).2.elements = [] := by
      intro b hb
      unfold Accumulator.push at hb ⊢
      simp only at hb ⊢
      split at hb
      · rename_i hl
        simp at hb
        subst hb
        exact ⟨by rw [hl, h.size], rfl, by simp [hl]⟩
      · simp at hb
    have hcont := hok.content
    have hre : realOnes [e] = [e] := by
      cases st <;> obtain ⟨x, rfl⟩ := hke <;> rfl
    rw [hre] at hcont
    cases hp : (w.acc.push e).1 with
    | none =>
      rw [hp] at hcont
      simp at hcont
      obtain ⟨w', bs, h1, h2, h3, h4, h5, h6, h7⟩ := ih (fun x hx => hk x (by simp [hx])) (w := { w with acc := (w.acc.push e).2 }) hok.inv hst'
      refine ⟨w', bs, ?_, h2, h3, h4, h5, ?_, h7⟩
      · unfold Writer.writeAll Writer.writeElement
        rw [hadd]
        have : w.acc.push e = (none, (w.acc.push e).2) := by rw [← hp]
        rw [this]
        exact h1
      · rw [h6]
        simp only
        rw [hcont]
        simp
    | some b =>
      rw [hp] at hcont
      simp at hcont
      obtain ⟨w', bs, h1, h2, h3, h4, h5, h6, h7⟩ :=
        ih (fun x hx => hk x (by simp [hx])) (w := Writer.writeElements z { w with acc := (w.acc.push e).2 } b) hok.inv hst'
      rw [writeElements_file] at h5
      obtain ⟨f1, f2, f3⟩ := hfull b hp
      refine ⟨w', b :: bs, ?_, h2, h3, h4, ?_, ?_, ?_⟩
      · unfold Writer.writeAll Writer.writeElement
        rw [hadd]
        have : w.acc.push e = (some b, (w.acc.push e).2) := by rw [← hp]
        rw [this]
        exact h1
      · rw [h5]
        simp only [List.map_cons]
        rw [show (FileBlock.data b :: bs.map .data) = [FileBlock.data b] ++ bs.map .data from rfl, blockBytes_append, List.append_assoc]
        rfl
      · rw [List.flatten_cons, List.append_assoc, h6, show (Writer.writeElements z { w with acc := (w.acc.push e).2 } b).acc.elements = (w.acc.push e).2.elements from rfl,
          f2, f3]
        simp
      · intro x hx
        rcases List.mem_cons.mp hx with rfl | hx
        · exact f1
        · exact h7 x hx

/-- The elements written in full blocks and the rest, as a block if there is one. -/
theorem asFull_rest {st : AccState} {bs : List (List Element)} {rest : List Element} (hk : ∀ e ∈ bs.flatten ++ rest, st.holds e)
    (hb : ∀ b ∈ bs, b.length = 8000) (hr : rest.length < 8000) :
    AsFull 8000 (bs ++ if rest = [] then [] else [rest]) := by
  have hrank : ∀ e f, st.holds e → st.holds f → rank e = rank f := by
    intro e f he hf
    cases st <;> obtain ⟨x, rfl⟩ := he <;> obtain ⟨y, rfl⟩ := hf <;> rfl
  have h1 : AsFull 8000 bs := by
    refine ⟨?_, ?_⟩
    · intro b hb'
      refine ⟨by rw [hb b hb']; decide, by rw [hb b hb'], ?_⟩
      intro e he f hf
      exact hrank e f (hk e (List.mem_append_left _ (List.mem_flatten_of_mem hb' he))) (hk f (List.mem_append_left _ (List.mem_flatten_of_mem hb' hf)))
    · clear hk
      induction bs with
      | nil => exact .nil
      | cons b bs ih =>
        cases bs with
        | nil => exact .singleton _
        | cons c bs => exact List.isChain_cons_cons.mpr ⟨.inl (hb b (by simp)), ih (fun x hx => hb x (by simp [hx]))⟩
  refine asFull_append h1 ?_ ?_
  · split
    · exact ⟨by simp, .nil⟩
    · rename_i hn
      refine ⟨?_, .singleton _⟩
      intro b hb'
      simp at hb'
      subst hb'
      exact ⟨List.length_pos_iff.mpr hn, by omega, fun e he f hf => hrank e f (hk e (by simp [he])) (hk f (by simp [hf]))⟩
  · intro b hb'
    exact .inl (hb b (List.mem_of_mem_getLast? hb'))

theorem rest_nil {bs : List (List Element)} {rest es : List Element} (h : bs.flatten ++ rest = es) (hb : ∀ b ∈ bs, b.length = 8000) (hr : rest.length < 8000) :
    rest = [] ↔ 8000 ∣ es.length := by
  have hl : bs.flatten.length = 8000 * bs.length := by
    clear h
    induction bs with
    | nil => rfl
    | cons b bs ih =>
      have := ih (fun x hx => hb x (by simp [hx]))
      have := hb b (by simp)
      simp only [List.flatten_cons, List.length_append, List.length_cons]
      omega
  have := congrArg List.length h
  rw [List.length_append, hl] at this
  rw [← this, ← List.length_eq_zero_iff]
  omega

/-- Elements of one type, and what is in the file if the writer is closed afterwards or goes on with the next type. -/
theorem writeAll_phase {z : Zlib} {st : AccState} (es : List Element) (hk : ∀ e ∈ es, st.holds e) {w : Writer} (h : AccInv w.acc) (hst : w.acc.state = st) :
    ∃ (w' : Writer) (N : List (List Element)), w.writeAll z es = .ok w' ∧ AccInv w'.acc ∧ w'.acc.state = st ∧ w'.compression = w.compression ∧
      AsFull 8000 N ∧ N.flatten = w.acc.elements ++ es ∧
      (w'.close z).file = w.file ++ blockBytes z w.compression (N.map .data) ∧
      w'.file ++ blockBytes z w.compression [.data w'.acc.elements] =
        w.file ++ blockBytes z w.compression ((N ++ if 8000 ∣ (w.acc.elements ++ es).length then [[]] else []).map .data) := by
  obtain ⟨w', bs, h1, h2, h3, h4, h5, h6, h7⟩ := writeAll_run (z := z) es hk h hst
  have hall : ∀ e ∈ bs.flatten ++ w'.acc.elements, st.holds e := by
    rw [h6]
    intro e he
    rcases List.mem_append.mp he with he | he
    · exact hst ▸ h.kind e he
    · exact hk e he
  have hrest := rest_nil h6 h7 h2.len
  refine ⟨w', bs ++ (if w'.acc.elements = [] then [] else [w'.acc.elements]), h1, h2, h3, h4, asFull_rest hall h7 h2.len, ?_, ?_, ?_⟩
  · rw [← h6, List.flatten_append]
    congr 1
    split <;> simp_all
  · unfold Writer.close Accumulator.take
    by_cases hn : w'.acc.elements = []
    · simp [hn, h5]
    · have : w'.acc.elements.isEmpty = false := by simp [hn]
      simp only [this, if_neg hn, Bool.false_eq_true, if_false]
      rw [writeElements_file]
      simp only
      rw [h5, h4, List.map_append, blockBytes_append, List.append_assoc]
      rfl
  · rw [h5, List.append_assoc, ← blockBytes_append]
    congr 2
    by_cases hn : w'.acc.elements = []
    · rw [if_pos hn, if_pos (hrest.mp hn), hn]
      simp
    · rw [if_neg hn, if_neg (fun hd => hn (hrest.mpr hd))]
      simp

/-- The first element of the next type. -/
theorem write_switch {z : Zlib} {st : AccState} {e : Element} {w : Writer} (h : AccInv w.acc)
    (hs : w.acc.state = .nodes ∧ st = .ways ∨ w.acc.state = .ways ∧ st = .relations) (he : st.holds e) :
    ∃ w', w.writeElement z e = .ok w' ∧ AccInv w'.acc ∧ w'.acc.state = st ∧ w'.acc.elements = [e] ∧ w'.compression = w.compression ∧
      w'.file = w.file ++ blockBytes z w.compression [.data w.acc.elements] := by
  have hp := push_small (a := { w.acc with state := st, elements := [] }) ⟨h.size, by simp, by simp⟩ e rfl
  have hadd : w.acc.add e = .ok (some w.acc.elements, { w.acc with state := st, elements := [e] }) := by
    rcases hs with ⟨h1, rfl⟩ | ⟨h1, rfl⟩ <;> obtain ⟨x, rfl⟩ := he <;> simp only [Accumulator.add, h1, hp]
  have hk : ∀ x ∈ [e], st.holds x := by simpa using he
  refine ⟨Writer.writeElements z { w with acc := { w.acc with state := st, elements := [e] } } w.acc.elements,
    by unfold Writer.writeElement; rw [hadd]; rfl, ⟨h.size, by show [e].length < 8000; simp, hk⟩, rfl, rfl, rfl, ?_⟩
  rw [writeElements_file]

theorem writeAll_append {z : Zlib} (a b : List Element) (w : Writer) : w.writeAll z (a ++ b) = (w.writeAll z a).bind fun w => w.writeAll z b := by
  induction a generalizing w with
  | nil => rfl
  | cons e a ih =>
    simp only [List.cons_append, Writer.writeAll]
    cases h : w.writeElement z e with
    | ok w1 => exact ih w1
    | err => rfl
    | panic => rfl

/-- C99. The file a sequential writer makes of nodes, ways and relations: each type in blocks as full as possible, and an empty block at a change of type
exactly when the elements before it fill their blocks. -/
theorem C99_sequential (z : Zlib) (info : FileInfo) (c : CompressionType) (ns ws rs : List Element) (hn : ∀ e ∈ ns, ∃ n, e = .node n)
    (hw : ∀ e ∈ ws, ∃ w, e = .way w) (hr : ∀ e ∈ rs, ∃ r, e = .relation r) (hwr : rs ≠ [] → ws ≠ []) :
    ∃ (w : Writer) (N W R : List (List Element)), ((Writer.fromFileInfo info c).writeHeader z).writeAll z (ns ++ ws ++ rs) = .ok w ∧
      (AsFull 8000 N ∧ N.flatten = ns) ∧ (AsFull 8000 W ∧ W.flatten = ws) ∧ (AsFull 8000 R ∧ R.flatten = rs) ∧
      (w.close z).file = blockBytes z c (.header info :: (N ++ emptyBetween ns ws ++ W ++ emptyBetween ws rs ++ R).map .data) := by
  have hnil : AsFull 8000 [] := ⟨by simp, .nil⟩
  have hhead : ((Writer.fromFileInfo info c).writeHeader z).file = blockBytes z c [.header info] := by
    simp [Writer.writeHeader, Writer.fromFileInfo, Writer.writeFileBlock, Writer.writeBlob, blockBytes]
  have hcons : ∀ l : List (List Element), blockBytes z c (.header info :: l.map .data) =
      blockBytes z c [.header info] ++ blockBytes z c (l.map .data) := by
    intro l
    rw [← blockBytes_append]
    rfl
  generalize hw0 : (Writer.fromFileInfo info c).writeHeader z = w0 at hhead ⊢
  have hi0 : AccInv w0.acc := by rw [← hw0]; exact accInv_new
  have he0 : w0.acc.elements = [] := by rw [← hw0]; rfl
  have hc0 : w0.compression = c := by rw [← hw0]; rfl
  obtain ⟨w1, N, a1, a2, a3, a4, a5, a6, a7, a8⟩ := writeAll_phase (z := z) (st := .nodes) ns hn hi0 (by rw [← hw0]; rfl)
  rw [he0, List.nil_append] at a6 a8
  rw [hc0] at a4 a7 a8
  cases ws with
  | nil =>
    have : rs = [] := by by_contra h; exact hwr h rfl
    subst this
    refine ⟨w1, N, [], [], by simpa using a1, ⟨a5, a6⟩, ⟨hnil, rfl⟩, ⟨hnil, rfl⟩, ?_⟩
    rw [a7, hhead, hcons]
    simp [emptyBetween]
  | cons x ws =>
    obtain ⟨w2, b1, b2, b3, b4, b5, b6⟩ := write_switch (z := z) (st := .ways) a2 (.inl ⟨a3, rfl⟩) (hw x (by simp))
    obtain ⟨w3, W, c1, c2, c3, c4, c5, c6, c7, c8⟩ := writeAll_phase (z := z) (st := .ways) ws (fun e he => hw e (by simp [he])) b2 b3
    rw [b4, List.singleton_append] at c6 c8
    rw [a4, a8] at b6
    rw [b5, a4, b6, hhead] at c7 c8
    rw [b5, a4] at c4
    have hgap : (if 8000 ∣ ns.length then [[]] else []) = emptyBetween ns (x :: ws) := by simp [emptyBetween]
    rw [hgap] at c7 c8
    have hrun : w0.writeAll z (ns ++ (x :: ws)) = .ok w3 := by
      rw [writeAll_append, a1]
      show w1.writeAll z (x :: ws) = _
      simp only [Writer.writeAll, b1]
      exact c1
    cases rs with
    | nil =>
      refine ⟨w3, N, W, [], by simpa using hrun, ⟨a5, a6⟩, ⟨c5, c6⟩, ⟨hnil, rfl⟩, ?_⟩
      rw [c7, hcons, List.append_assoc, ← blockBytes_append]
      simp [emptyBetween]
    | cons y rs =>
      obtain ⟨w4, d1, d2, d3, d4, d5, d6⟩ := write_switch (z := z) (st := .relations) c2 (.inr ⟨c3, rfl⟩) (hr y (by simp))
      obtain ⟨w5, R, e1, e2, e3, e4, e5, e6, e7, e8⟩ := writeAll_phase (z := z) (st := .relations) rs (fun e he => hr e (by simp [he])) d2 d3
      rw [d4, List.singleton_append] at e6
      rw [c4, c8] at d6
      rw [d5, c4, d6] at e7
      have hgap2 : (if 8000 ∣ (x :: ws).length then [[]] else []) = emptyBetween (x :: ws) (y :: rs) := by simp [emptyBetween]
      rw [hgap2] at e7
      refine ⟨w5, N, W, R, ?_, ⟨a5, a6⟩, ⟨c5, c6⟩, ⟨e5, e6⟩, ?_⟩
      · rw [writeAll_append, hrun]
        show w3.writeAll z (y :: rs) = _
        simp only [Writer.writeAll, d1]
        exact e1
      · rw [e7, hcons, List.append_assoc, List.append_assoc, ← blockBytes_append, ← blockBytes_append, ← List.map_append, ← List.map_append]
        simp only [List.append_assoc]

/-! ### Comparison -/

theorem chain_types {F : Nat} {a b : List (List Element)} (ha : AsFull F a) (hb : AsFull F b)
    (h : ∀ x ∈ a.flatten, ∀ y ∈ b.flatten, rank x ≠ rank y) : AsFull F (a ++ b) := by
  refine ⟨?_, List.isChain_append.mpr ⟨ha.2, hb.2, ?_⟩⟩
  · intro x hx
    rcases List.mem_append.mp hx with h | h
    · exact ha.1 x h
    · exact hb.1 x h
  · intro x hx y hy
    exact .inr fun e he f hf => h e (List.mem_flatten_of_mem (List.mem_of_mem_getLast? hx) he) f (List.mem_flatten_of_mem (List.mem_of_mem_head? hy) hf)

theorem blockBytes_pos (z : Zlib) (c : CompressionType) (b : FileBlock) (bs : List FileBlock) : 0 < (blockBytes z c (b :: bs)).length := by
  simp [blockBytes, blobBytes, beBytes]

/-- Blocks as full as possible, of nodes, ways and relations: those of each type by itself. -/
theorem full_parts {ns ws rs : List Element} (hn : ∀ e ∈ ns, ∃ n, e = .node n) (hw : ∀ e ∈ ws, ∃ w, e = .way w) (hr : ∀ e ∈ rs, ∃ r, e = .relation r)
    {N W R blocks : List (List Element)} (n1 : AsFull 8000 N) (n2 : N.flatten = ns) (w1 : AsFull 8000 W) (w2 : W.flatten = ws) (r1 : AsFull 8000 R)
    (r2 : R.flatten = rs) (f1 : AsFull 8000 blocks) (f2 : blocks.flatten = ns ++ ws ++ rs) : blocks = N ++ W ++ R := by
  refine asFull_unique f1 (chain_types (chain_types n1 w1 ?_) r1 ?_) (by rw [f2]; simp [n2, w2, r2])
  · rw [n2, w2]
    intro x hx y hy
    obtain ⟨x, rfl⟩ := hn x hx
    obtain ⟨y, rfl⟩ := hw y hy
    simp [rank]
  · rw [List.flatten_append, n2, w2, r2]
    intro x hx y hy
    obtain ⟨y, rfl⟩ := hr y hy
    rcases List.mem_append.mp hx with hx | hx
    · obtain ⟨x, rfl⟩ := hn x hx; simp [rank]
    · obtain ⟨x, rfl⟩ := hw x hx; simp [rank]

/-- A sequential writer takes relations only after a way. -/
theorem relations_need_way {z : Zlib} {w0 w : Writer} (hst : w0.acc.state = .nodes) {ns ws rs : List Element} (hn : ∀ e ∈ ns, ∃ n, e = .node n)
    (hr : ∀ e ∈ rs, ∃ r, e = .relation r) (hok : w0.writeAll z (ns ++ ws ++ rs) = .ok w) : rs ≠ [] → ws ≠ [] := by
  intro hrs hws
  subst hws
  obtain ⟨y, rs, rfl⟩ := List.exists_cons_of_ne_nil hrs
  have := writeAll_accepts (z := z) (ns ++ [] ++ y :: rs) w0
  rw [hok] at this
  simp only [reduceCtorEq, and_false, or_false] at this
  rw [hst] at this
  obtain ⟨y, rfl⟩ := hr y (by simp)
  have hno : ∀ ns : List Element, (∀ e ∈ ns, ∃ n, e = .node n) → accepts .nodes (ns ++ .relation y :: rs) = false := by
    intro ns hn
    induction ns with
    | nil => rfl
    | cons x ns ih =>
      obtain ⟨x, rfl⟩ := hn x (by simp)
      exact ih (fun e he => hn e (by simp [he]))
  have h := hno ns hn
  rw [List.append_nil, h] at this
  simp at this

/-- When the blocks as full as possible give the file of the sequential writer. -/
theorem same_core {z : Zlib} {info : FileInfo} {c : CompressionType} {ns ws rs : List Element} (hn : ∀ e ∈ ns, ∃ n, e = .node n)
    (hw : ∀ e ∈ ws, ∃ w, e = .way w) (hr : ∀ e ∈ rs, ∃ r, e = .relation r) {w : Writer}
    (hok : ((Writer.fromFileInfo info c).writeHeader z).writeAll z (ns ++ ws ++ rs) = .ok w) {blocks : List (List Element)} (f1 : AsFull 8000 blocks)
    (f2 : blocks.flatten = ns ++ ws ++ rs) :
    blockBytes z c (.header info :: blocks.map .data) = (w.close z).file ↔
      ¬ (ws ≠ [] ∧ 8000 ∣ ns.length) ∧ ¬ (rs ≠ [] ∧ 8000 ∣ ws.length) := by
  have hwr := relations_need_way rfl hn hr hok
  obtain ⟨w', N, W, R, h1, ⟨n1, n2⟩, ⟨w1, w2⟩, ⟨r1, r2⟩, h2⟩ := C99_sequential z info c ns ws rs hn hw hr hwr
  rw [hok] at h1
  cases h1
  rw [full_parts hn hw hr n1 n2 w1 w2 r1 r2 f1 f2, h2]
  have hlen : ∀ l : List (List Element), (blockBytes z c (.header info :: l.map .data)).length =
      (blockBytes z c [.header info]).length + (blockBytes z c (l.map .data)).length := by
    intro l
    rw [← List.length_append, ← blockBytes_append]
    rfl
  constructor
  · intro heq
    have h := congrArg List.length heq
    rw [hlen, hlen] at h
    simp only [List.map_append, blockBytes_append, List.length_append] at h
    have hpos := blockBytes_pos z c (.data []) []
    constructor
    · intro hg
      rw [show emptyBetween ns ws = [[]] from if_pos hg] at h
      simp only [List.map_cons, List.map_nil] at h
      omega
    · intro hg
      rw [show emptyBetween ws rs = [[]] from if_pos hg] at h
      simp only [List.map_cons, List.map_nil] at h
      omega
  · rintro ⟨g1, g2⟩
    rw [show emptyBetween ns ws = [] from if_neg g1, show emptyBetween ws rs = [] from if_neg g2]
    simp

/-- The file of a parallel writer given sorted elements. -/
theorem parallel_full {g : ParSystem.Config} (hF : g.blockSize = 8000) (hB : 8000 ≤ g.bufferSize + 1) {ops : List Op} {s : ParSystem}
    (hs : Occurs g (.header :: ops) s) (hc : Closed s) (hno : NoSentinel (submitted (callsOf ops))) (hsort : Sorted (submitted (callsOf ops))) :
    ∃ blocks, AsFull 8000 blocks ∧ blocks.flatten = submitted (callsOf ops) ∧
      s.file = some (blockBytes g.z g.c (.header g.info :: blocks.map .data)) := by
  obtain ⟨blocks, hb, hf⟩ := C68_close_complete g (by omega) ops s hs hc
  obtain ⟨f1, f2⟩ := blocks_full (by omega) (by omega) hno hsort hb
  exact ⟨blocks, hF ▸ f1, f2, hf⟩

theorem typed_real {ns ws rs : List Element} (hn : ∀ e ∈ ns, ∃ n, e = .node n)
    (hw : ∀ e ∈ ws, ∃ w, e = .way w) (hr : ∀ e ∈ rs, ∃ r, e = .relation r) : NoSentinel (ns ++ ws ++ rs) := by
  intro e hm
  simp only [List.mem_append] at hm
  rcases hm with (hm | hm) | hm
  · obtain ⟨x, rfl⟩ := hn e hm; simp
  · obtain ⟨x, rfl⟩ := hw e hm; simp
  · obtain ⟨x, rfl⟩ := hr e hm; simp

/-- C99. The file of a parallel writer given sorted nodes, ways and relations, in whatever calls and by whatever schedule of its threads, next to the
file of a sequential writer given the same elements one by one: they have the same data blocks in the same order, apart from the empty blocks of the
sequential writer. -/
theorem C99_blocks (g : ParSystem.Config) (hF : g.blockSize = 8000) (hB : 8000 ≤ g.bufferSize + 1) (ops : List Op) (s : ParSystem)
    (hs : Occurs g (.header :: ops) s) (hc : Closed s) (ns ws rs : List Element) (hn : ∀ e ∈ ns, ∃ n, e = .node n)
    (hw : ∀ e ∈ ws, ∃ w, e = .way w) (hr : ∀ e ∈ rs, ∃ r, e = .relation r) (hwr : rs ≠ [] → ws ≠ [])
    (he : submitted (callsOf ops) = ns ++ ws ++ rs) (hsort : Sorted (ns ++ ws ++ rs)) :
    ∃ (w : Writer) (N W R : List (List Element)), ((Writer.fromFileInfo g.info g.c).writeHeader g.z).writeAll g.z (ns ++ ws ++ rs) = .ok w ∧
      N.flatten = ns ∧ W.flatten = ws ∧ R.flatten = rs ∧
      (w.close g.z).file = blockBytes g.z g.c (.header g.info :: (N ++ emptyBetween ns ws ++ W ++ emptyBetween ws rs ++ R).map .data) ∧
      s.file = some (blockBytes g.z g.c (.header g.info :: (N ++ W ++ R).map .data)) := by
  obtain ⟨w, N, W, R, h1, ⟨n1, n2⟩, ⟨w1, w2⟩, ⟨r1, r2⟩, h2⟩ := C99_sequential g.z g.info g.c ns ws rs hn hw hr hwr
  obtain ⟨blocks, f1, f2, hf⟩ := parallel_full hF hB hs hc (he ▸ typed_real hn hw hr) (he ▸ hsort)
  rw [he] at f2
  exact ⟨w, N, W, R, h1, n2, w2, r2, h2, by rw [hf, full_parts hn hw hr n1 n2 w1 w2 r1 r2 f1 f2]⟩

/-- C99. The two files are the same, byte for byte, unless the nodes before the first way or the ways before the first relation are a multiple of 8000. -/
theorem C99_same (g : ParSystem.Config) (hF : g.blockSize = 8000) (hB : 8000 ≤ g.bufferSize + 1) (ops : List Op) (s : ParSystem)
    (hs : Occurs g (.header :: ops) s) (hc : Closed s) (ns ws rs : List Element) (hn : ∀ e ∈ ns, ∃ n, e = .node n)
    (hw : ∀ e ∈ ws, ∃ w, e = .way w) (hr : ∀ e ∈ rs, ∃ r, e = .relation r)
    (he : submitted (callsOf ops) = ns ++ ws ++ rs) (hsort : Sorted (ns ++ ws ++ rs)) (w : Writer)
    (hok : ((Writer.fromFileInfo g.info g.c).writeHeader g.z).writeAll g.z (ns ++ ws ++ rs) = .ok w) :
    s.file = some (w.close g.z).file ↔ ¬ (ws ≠ [] ∧ 8000 ∣ ns.length) ∧ ¬ (rs ≠ [] ∧ 8000 ∣ ws.length) := by
  obtain ⟨blocks, f1, f2, hf⟩ := parallel_full hF hB hs hc (he ▸ typed_real hn hw hr) (he ▸ hsort)
  rw [he] at f2
  rw [hf, Option.some.injEq]
  exact same_core hn hw hr hok f1 f2

/-- C99. The two copying programs: `pbf-io` and, by whatever schedule of its threads, `parallel-pbf-io` make the same file of the same input, byte for byte, if
the ordering buffer of the latter has room for all elements kept, these are strictly ascending, and neither the number of nodes nor that of ways kept is a
multiple of 8000. -/
theorem C99_copies (g : ParSystem.Config) (hF : g.blockSize = 8000) (file : Bytes) (info : FileInfo) (blocks : List (List Element))
    (hb : HasBlocks g.z file (.header info :: blocks.map .data)) (ho : openReader g.z file = .ok info) (program : String)
    (hi : g.info = { info with writingprogram := some program }) {T : Nat} (hT : 0 < T) (readCap : Nat) (hcap : 0 < readCap) (keep : Element → Bool)
    (ns ws rs : List Element) (hn : ∀ e ∈ ns, ∃ n, e = .node n) (hw : ∀ e ∈ ws, ∃ w, e = .way w) (hr : ∀ e ∈ rs, ∃ r, e = .relation r)
    (hk : blocks.flatten.filter keep = ns ++ ws ++ rs) (ha : Ascending (ns ++ ws ++ rs)) (hl : (ns ++ ws ++ rs).length ≤ g.bufferSize)
    (ds : List BlobDesc) (s : ParallelIo T) (hs : ParallelIoOccurs g file readCap keep ds s) (hc : Closed s.writer) (out : Bytes)
    (hp : PbfIo g.z keep program g.c file (.ok out)) :
    s.writer.file = some out ↔ ¬ (ws ≠ [] ∧ 8000 ∣ ns.length) ∧ ¬ (rs ≠ [] ∧ 8000 ∣ ws.length) := by
  have hflat : (FileBlock.header info :: blocks.map .data).flatMap elementsOf = blocks.flatten := by
    simp [elementsOf, List.flatMap, List.map_map, Function.comp_def]
  obtain ⟨bs, h1, h2, h3⟩ := (C70_exact g (by omega) file _ hb hT readCap hcap keep _ (by rw [hflat, hk]) ha hl ds s hs).2 hc
  rw [hF] at h3
  obtain ⟨fuel, hfuel⟩ := hb
  have hreads : ∀ es' r, ReadsElements g.z file es' r ↔ es' = blocks.flatten ∧ r = .done := by
    intro es' r
    rw [reads_iff hfuel (by simp)]
    have hst : ∀ bs : List (List Element), stream (bs.map FileBlock.data) .done = (bs.flatten, .done) := by
      intro bs
      induction bs with
      | nil => rfl
      | cons b bs ih => simp [stream, ih]
    simp [streamAll, hst]
  rw [pbfIo_iff ho hreads, hk] at hp
  obtain ⟨w, e1, e2⟩ := Out.bind_eq_ok.mp hp.symm
  cases e2
  rw [← hi] at e1
  rw [h1, Option.some.injEq]
  exact same_core hn hw hr e1 h3 h2

/-! ### Concrete programs -/

/-- A parallel writer with the sizes of the sequential one. -/
def exFullSize (z : Zlib) (info : FileInfo) (c : CompressionType) : ParSystem.Config := ⟨z, mergeSortStd, info, c, 8000, 8000, 3, 2⟩

theorem exFullSize_runs (z : Zlib) (info : FileInfo) (c : CompressionType) (ops : List Op) (hl : (submitted (callsOf ops)).length ≤ 8000) :
    ∃ s, Occurs (exFullSize z info c) (.header :: ops) s ∧ Closed s := by
  obtain ⟨-, -, s, hs, hc⟩ := C68_no_deadlock (exFullSize z info c) (by simp [exFullSize]) (by simp [exFullSize]) (by simp [exFullSize]) ops
    ⟨_, run_small mergeSortStd 8000 8000 (callsOf ops) {} rfl (by simpa using hl)⟩ _ .refl
  exact ⟨s, hs, hc⟩

/-- Two nodes, a way and a relation: the same file. -/
example (z : Zlib) (info : FileInfo) (c : CompressionType) :
    ∃ s, Occurs (exFullSize z info c) [.header, .write (.elements [nodeN 1, nodeN 2]), .write (.elements [.way exWay, .relation exRelation])] s ∧ Closed s ∧
      ∃ w, ((Writer.fromFileInfo info c).writeHeader z).writeAll z [nodeN 1, nodeN 2, .way exWay, .relation exRelation] = .ok w ∧
        s.file = some (w.close z).file := by
  obtain ⟨s, hs, hc⟩ := exFullSize_runs z info c [.write (.elements [nodeN 1, nodeN 2]), .write (.elements [.way exWay, .relation exRelation])]
    (by decide)
  obtain ⟨w, -, -, -, hw, -⟩ := C99_sequential z info c [nodeN 1, nodeN 2] [.way exWay] [.relation exRelation] (by simp [nodeN]) (by simp) (by simp) (by simp)
  refine ⟨s, hs, hc, w, hw, ?_⟩
  exact (C99_same (exFullSize z info c) rfl (by simp [exFullSize]) _ s hs hc [nodeN 1, nodeN 2] [.way exWay] [.relation exRelation] (by simp [nodeN]) (by simp)
    (by simp) rfl (by unfold Sorted Before; decide) w hw).mpr (by simp)

/-- A way by itself: the file of the sequential writer has an empty block before it. -/
example (z : Zlib) (info : FileInfo) (c : CompressionType) :
    ∃ s, Occurs (exFullSize z info c) [.header, .write (.element (.way exWay))] s ∧ Closed s ∧
      ∃ w, ((Writer.fromFileInfo info c).writeHeader z).writeAll z [.way exWay] = .ok w ∧ s.file ≠ some (w.close z).file := by
  obtain ⟨s, hs, hc⟩ := exFullSize_runs z info c [.write (.element (.way exWay))] (by decide)
  obtain ⟨w, -, -, -, hw, -⟩ := C99_sequential z info c [] [.way exWay] [] (by simp) (by simp) (by simp) (by simp)
  refine ⟨s, hs, hc, w, hw, ?_⟩
  intro h
  have := (C99_same (exFullSize z info c) rfl (by simp [exFullSize]) _ s hs hc [] [.way exWay] [] (by simp) (by simp) (by simp) rfl
    (by unfold Sorted Before; decide) w hw).mp h
  simp at this

/-- Both programs copy a file of three nodes to the same file. -/
example : ∃ ds, ∃ (s : ParallelIo 2) (out : Bytes),
    ParallelIoOccurs (exFullSize exZ { fromHeaderBlock (toHeaderBlock exInfo) with writingprogram := some "copy" } .zlib) exThree 1 (fun _ => true) ds s ∧
    Closed s.writer ∧ PbfIo exZ (fun _ => true) "copy" .zlib exThree (.ok out) ∧ s.writer.file = some out := by
  have hopen : openReader exZ exThree = .ok (fromHeaderBlock (toHeaderBlock exInfo)) := by
    have := (C17_open_iff exZ exThree (fromHeaderBlock (toHeaderBlock exInfo))).mpr
    refine this ⟨?_, by simp [exInfo, FileInfo.default, Supported, fromHeaderBlock, toHeaderBlock]⟩
    have h := written_header exZ exZ_lossless .zlib exInfo (blockBytes exZ .zlib ([[nodeN 1], [nodeN 2], [nodeN 3]].map .data)) exInfo_nonempty exInfo_fits
    have e : ((Writer.fromFileInfo exInfo .zlib).writeHeader exZ).file ++ blockBytes exZ .zlib ([[nodeN 1], [nodeN 2], [nodeN 3]].map .data) = exThree := by
      simp [exThree, blockBytes, Writer.writeHeader, Writer.fromFileInfo, Writer.writeFileBlock, Writer.writeBlob]
    rwa [e] at h
  obtain ⟨fuel, hb'⟩ := id exThree_blocks
  obtain ⟨ds, h1, -, -⟩ := commands_of_blocks fuel {} _ hb'
  generalize hg : exFullSize exZ { fromHeaderBlock (toHeaderBlock exInfo) with writingprogram := some "copy" } .zlib = g
  have hz : g.z = exZ := by rw [← hg]; rfl
  have hi : g.info = { fromHeaderBlock (toHeaderBlock exInfo) with writingprogram := some "copy" } := by rw [← hg]; rfl
  have hcz : g.c = .zlib := by rw [← hg]; rfl
  have hF : g.blockSize = 8000 := by rw [← hg]; rfl
  have hB : g.bufferSize = 8000 := by rw [← hg]; rfl
  have hblocks : HasBlocks g.z exThree
      (.header (fromHeaderBlock (toHeaderBlock exInfo)) :: [[nodeN 1], [nodeN 2], [nodeN 3]].map .data) := by rw [hz]; exact exThree_blocks
  have hasc : Ascending ([nodeN 1, nodeN 2, nodeN 3] ++ [] ++ []) := by unfold Ascending; decide
  have hinit : ParallelIoOccurs (T := 2) g exThree 1 (fun _ => true) ds (ParallelIo.init _) := .run fuel _ h1 .refl
  obtain ⟨s, -, hs, hc⟩ := C70_no_deadlock g (by omega) (by rw [← hg]; decide) (by rw [← hg]; decide) exThree _ hblocks Nat.two_pos 1 Nat.one_pos _ ds _ hinit
  have hc := hc.resolve_right (C70_exact g (by omega) exThree _ hblocks Nat.two_pos 1 Nat.one_pos (fun _ => true) [nodeN 1, nodeN 2, nodeN 3] rfl
    hasc (by rw [hB]; decide) ds s hs).1
  obtain ⟨w, -, -, -, hw, -⟩ := C99_sequential g.z g.info g.c [nodeN 1, nodeN 2, nodeN 3] [] [] (by simp [nodeN]) (by simp) (by simp) (by simp)
  have hpbf : PbfIo g.z (fun _ => true) "copy" g.c exThree (.ok (w.close g.z).file) := by
    have hreads : ∀ es' r, ReadsElements g.z exThree es' r ↔ es' = [nodeN 1, nodeN 2, nodeN 3] ∧ r = .done := by
      intro es' r
      obtain ⟨fuel, h⟩ := hblocks
      rw [reads_iff h (by simp)]
      simp [streamAll, stream]
    rw [pbfIo_iff (hz ▸ hopen) hreads, ← hi]
    rw [List.append_nil, List.append_nil] at hw
    rw [show ([nodeN 1, nodeN 2, nodeN 3].filter fun _ => true) = [nodeN 1, nodeN 2, nodeN 3] from rfl, hw]
    rfl
  refine ⟨ds, s, _, hs, hc, by rw [← hz, ← hcz]; exact hpbf, ?_⟩
  exact (C99_copies g hF exThree _ _ hblocks (hz ▸ hopen) "copy" hi Nat.two_pos 1 Nat.one_pos (fun _ => true) [nodeN 1, nodeN 2, nodeN 3] [] []
    (by simp [nodeN]) (by simp) (by simp) rfl hasc (by rw [hB]; decide) ds s hs hc _ hpbf).mpr (by simp)

end OsmIo
