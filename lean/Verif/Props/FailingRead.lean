import Verif.Spec.FailingRead
import Verif.Props.ForEach
import Verif.Props.Box
/-!
# I/O errors in reading a file (C80)
-/
set_option linter.unusedSimpArgs false
set_option linter.flexible false
namespace OsmIo
open Spec

open Spec.ReadFaults

theorem nextF_clean {fa : ReadFaults} {file : Bytes} {it : BlobIter} (h : FrameClean fa it.index) : it.nextF fa file = it.next file := by
  unfold BlobIter.nextF BlobIter.next
  simp only [h 0 (by omega), h 1 (by omega), h 2 (by omega), h 3 (by omega), Bool.false_or, Bool.false_eq_true, if_false, decide_eq_true_eq]
  rfl

theorem nextF_fault {fa : ReadFaults} {file : Bytes} {it : BlobIter} (h : ¬ FrameClean fa it.index) :
    it.nextF fa file = .ok none ∨ (it.nextF fa file = .panic ∧ it.next file = .panic) := by
  unfold FrameClean at h
  have h' : ∃ j < 4, fa.frame it.index j = true := by
    by_contra hn
    exact h fun j hj => by
      cases e : fa.frame it.index j with
      | false => rfl
      | true => exact absurd ⟨j, hj, e⟩ hn
  obtain ⟨j, hj, he⟩ := h'
  unfold BlobIter.nextF BlobIter.next
  have hcases : j = 0 ∨ j = 1 ∨ j = 2 ∨ j = 3 := by omega
  simp only
  split
  · exact .inl rfl
  · rename_i h0
    simp only [Bool.or_eq_true, decide_eq_true_eq, not_or] at h0
    rw [if_neg h0.2]
    split
    · rename_i a b c d e1
      split at e1
      · cases e1
      · rename_i h1
        rw [e1]
        simp only
        split
        · exact .inr ⟨rfl, rfl⟩
        · left
          split
          · rfl
          · rename_i hdr e2
            split at e2
            · cases e2
            · rename_i h2
              split
              · rfl
              · split
                · rfl
                · rename_i h3
                  rcases hcases with rfl | rfl | rfl | rfl
                  · exact absurd he h0.1
                  · exact absurd he h1
                  · exact absurd he h2
                  · exact absurd he h3
    · exact .inl rfl

theorem fromF_clean {fa : ReadFaults} {z : Zlib} {file : Bytes} {d : BlobDesc} (h : BodyClean fa d.index) :
    FileBlock.fromBlobDescF fa z file d = FileBlock.fromBlobDesc z file d := by
  unfold FileBlock.fromBlobDescF FileBlock.fromBlobDesc
  simp only [h 0 (by omega), h 1 (by omega), h 2 (by omega), Bool.false_eq_true, if_false]
  rfl

theorem fromF_fault {fa : ReadFaults} {z : Zlib} {file : Bytes} {d : BlobDesc} (h : ¬ BodyClean fa d.index) (b : FileBlock) :
    FileBlock.fromBlobDescF fa z file d ≠ .ok b := by
  intro hb
  apply h
  unfold FileBlock.fromBlobDescF at hb
  split at hb
  · cases hb
  · rename_i h0
    split at hb
    · cases hb
    · rename_i h1
      split at hb
      · cases hb
      · split at hb
        · cases hb
        · rename_i e
          split at e
          · cases e
          · rename_i h2
            intro j hj
            have hcases : j = 0 ∨ j = 1 ∨ j = 2 := by omega
            rcases hcases with rfl | rfl | rfl
            · simpa using h0
            · simpa using h1
            · simpa using h2

/-- One block: as without faults, or a panic because the body failed, or the end because the frame failed. -/
theorem nextBlockF_cases (fa : ReadFaults) (z : Zlib) (file : Bytes) (it : BlobIter) :
    nextBlockF fa z file it = nextBlock z file it ∨ nextBlockF fa z file it = .panic ∨
    (nextBlockF fa z file it = .ok none ∧ ¬ FrameClean fa it.index) := by
  by_cases hf : FrameClean fa it.index
  · unfold nextBlockF nextBlock
    rw [nextF_clean hf]
    cases hn : it.next file with
    | err => exact .inl rfl
    | panic => exact .inl rfl
    | ok o =>
      cases o with
      | none => exact .inl rfl
      | some x =>
        obtain ⟨d, it'⟩ := x
        simp only
        by_cases hb : BodyClean fa d.index
        · rw [fromF_clean hb]; exact .inl rfl
        · right; left
          have := fromF_fault (z := z) (file := file) hb
          cases e : FileBlock.fromBlobDescF fa z file d with
          | ok b => exact absurd e (this b)
          | err => rfl
          | panic => rfl
  · rcases nextF_fault (file := file) hf with h | ⟨h, h'⟩
    · right; right
      refine ⟨?_, hf⟩
      unfold nextBlockF
      rw [h]
    · left
      unfold nextBlockF nextBlock
      rw [h, h']

theorem createF_cases (fa : ReadFaults) (z : Zlib) (file : Bytes) (it : BlobIter) :
    createElementIteratorF fa z file it = createElementIterator z file it ∨ createElementIteratorF fa z file it = .panic ∨
    (createElementIteratorF fa z file it = .ok ⟨it, none⟩ ∧ ¬ FrameClean fa it.index) := by
  unfold createElementIteratorF createElementIterator
  rcases nextBlockF_cases fa z file it with h | h | ⟨h, h'⟩
  · left; rw [h]; rfl
  · right; left; rw [h]
  · right; right; rw [h]; exact ⟨rfl, h'⟩

theorem nextF_cases {fa : ReadFaults} {z : Zlib} {file : Bytes} {st : ElementIter} {o : Out (Option Element × ElementIter)}
    (h : ElementIter.NextF fa z file st o) :
    ElementIter.Next z file st o ∨ o = .panic ∨ (∃ it, o = .ok (none, ⟨it, none⟩) ∧ ¬ FrameClean fa it.index) := by
  induction h with
  | ended it => exact .inl (.ended it)
  | item it e es => exact .inl (.item it e es)
  | again it st r hc hn ih =>
    rcases createF_cases fa z file it with h | h | ⟨h, h'⟩
    · rw [h] at hc
      rcases ih with ih | ih | ih
      · exact .inl (.again it st r hc ih)
      · exact .inr (.inl ih)
      · exact .inr (.inr ih)
    · rw [h] at hc; cases hc
    · rw [h] at hc
      injection hc with hc
      subst hc
      cases hn
      exact .inr (.inr ⟨it, rfl, h'⟩)
  | fail it h => exact .inr (.inl rfl)

theorem drainsF_sim {fa : ReadFaults} {z : Zlib} {file : Bytes} {st : ElementIter} {es : List Element} {r : End}
    (h : ElementIter.DrainsF fa z file st es r) :
    (∀ es0 r0, ElementIter.Drains z file st es0 r0 → es <+: es0) ∧
    ((∀ k, FrameClean fa k) → r = .done → ElementIter.Drains z file st es .done) := by
  induction h with
  | done st st' h =>
    refine ⟨fun _ _ _ => List.nil_prefix, fun hc _ => ?_⟩
    rcases nextF_cases h with h | h | ⟨it, _, h⟩
    · exact .done _ _ h
    · cases h
    · exact absurd (hc _) h
  | fail st h => exact ⟨fun _ _ _ => List.nil_prefix, fun _ h => by cases h⟩
  | item st st' e es r h hd ih =>
    have hn : ElementIter.Next z file st (.ok (some e, st')) := by
      rcases nextF_cases h with h | h | ⟨it, h, _⟩
      · exact h
      · cases h
      · simp at h
    refine ⟨fun es0 r0 h0 => ?_, fun hc hr => .item _ _ _ _ _ hn (ih.2 hc hr)⟩
    cases h0 with
    | done _ _ hn' => have := next_det hn hn'; simp at this
    | fail _ hn' => have := next_det hn hn'; simp at this
    | item _ _ _ _ _ hn' hd' =>
      have := next_det hn hn'
      simp at this
      obtain ⟨rfl, rfl⟩ := this
      exact (List.prefix_cons_inj _).2 (ih.1 _ _ hd')

theorem newF_cases (fa : ReadFaults) (z : Zlib) (file : Bytes) :
    ElementIter.newF fa z file = ElementIter.new z file ∨ ElementIter.newF fa z file = .panic ∨
    (∃ it, ElementIter.newF fa z file = .ok ⟨it, none⟩ ∧ ∃ k, ¬ FrameClean fa k) := by
  unfold ElementIter.newF ElementIter.new
  rcases nextBlockF_cases fa z file {} with h | h | ⟨h, h'⟩
  · rw [h]
    cases hn : nextBlock z file {} with
    | err => exact .inl rfl
    | panic => exact .inl rfl
    | ok o =>
      cases o with
      | none => exact .inl rfl
      | some x =>
        obtain ⟨b, it⟩ := x
        simp only
        rcases createF_cases fa z file it with h | h | ⟨h, h'⟩
        · exact .inl h
        · exact .inr (.inl h)
        · exact .inr (.inr ⟨it, h, _, h'⟩)
  · rw [h]; exact .inr (.inl rfl)
  · rw [h]; exact .inr (.inr ⟨_, rfl, _, h'⟩)

/-- C80: whatever fails while a file is read, the elements handed out are a beginning of the elements of the file, in their order; and nothing but `None` or a
panic ends the iteration. -/
theorem C80_beginning (fa : ReadFaults) (z : Zlib) (file : Bytes) (es es0 : List Element) (r r0 : End)
    (h : ReadsElementsF fa z file es r) (h0 : ReadsElements z file es0 r0) : es <+: es0 := by
  cases h with
  | new_fail h => exact List.nil_prefix
  | iterate st _ _ h hd =>
    rcases newF_cases fa z file with hc | hc | ⟨it, hc, _⟩
    · rw [hc] at h
      cases h0 with
      | new_fail h0 => rw [h] at h0; cases h0
      | iterate st0 _ _ h0 hd0 =>
        rw [h] at h0
        injection h0 with h0
        subst h0
        exact (drainsF_sim hd).1 _ _ hd0
    · rw [hc] at h; cases h
    · rw [hc] at h
      injection h with h
      subst h
      cases hd with
      | done => exact List.nil_prefix
      | fail => exact List.nil_prefix
      | item _ _ _ _ _ hn => cases hn

/-- C80: if only the reading of bodies fails, an iteration that ends without a panic has delivered everything. -/
theorem C80_complete (fa : ReadFaults) (z : Zlib) (file : Bytes) (es : List Element) (hf : ∀ k, FrameClean fa k)
    (h : ReadsElementsF fa z file es .done) : ReadsElements z file es .done := by
  cases h with
  | iterate st _ _ h hd =>
    rcases newF_cases fa z file with hc | hc | ⟨it, hc, k, hk⟩
    · rw [hc] at h
      exact .iterate st _ _ h ((drainsF_sim hd).2 hf rfl)
    · rw [hc] at h; cases h
    · exact absurd (hf k) hk

/-! ### Where the iteration ends -/

theorem nextF_det {fa : ReadFaults} {z : Zlib} {file : Bytes} {st : ElementIter} {r r' : Out (Option Element × ElementIter)}
    (h : ElementIter.NextF fa z file st r) (h' : ElementIter.NextF fa z file st r') : r = r' := by
  induction h generalizing r' with
  | ended => cases h'; rfl
  | item => cases h'; rfl
  | again it st r hc hn ih =>
    cases h' with
    | again _ st' _ hc' hn' =>
      rw [hc] at hc'; simp at hc'; subst hc'; exact ih hn'
    | fail _ hc' => rw [hc] at hc'; simp at hc'
  | fail it hc =>
    cases h' with
    | again _ st' _ hc' hn' => rw [hc] at hc'; simp at hc'
    | fail _ hc' => rfl

theorem drainsF_det {fa : ReadFaults} {z : Zlib} {file : Bytes} {st : ElementIter} {es es' : List Element} {r r' : End}
    (h : ElementIter.DrainsF fa z file st es r) (h' : ElementIter.DrainsF fa z file st es' r') : es = es' ∧ r = r' := by
  induction h generalizing es' r' with
  | done st st1 hn =>
    cases h' with
    | done => simp
    | fail _ hn' => have := nextF_det hn hn'; simp at this
    | item _ _ _ _ _ hn' => have := nextF_det hn hn'; simp at this
  | fail st hn =>
    cases h' with
    | done _ _ hn' => have := nextF_det hn hn'; simp at this
    | fail _ hn' => simp
    | item _ _ _ _ _ hn' => have := nextF_det hn hn'; simp at this
  | item st st1 e es r hn hd ih =>
    cases h' with
    | done _ _ hn' => have := nextF_det hn hn'; simp at this
    | fail _ hn' => have := nextF_det hn hn'; simp at this
    | item _ _ _ _ _ hn' hd' =>
      have := nextF_det hn hn'
      simp at this
      obtain ⟨rfl, rfl⟩ := this
      obtain ⟨rfl, rfl⟩ := ih hd'
      simp

theorem readsF_det {fa : ReadFaults} {z : Zlib} {file : Bytes} {es es' : List Element} {r r' : End}
    (h : ReadsElementsF fa z file es r) (h' : ReadsElementsF fa z file es' r') : es = es' ∧ r = r' := by
  cases h with
  | new_fail h =>
    cases h' with
    | new_fail => simp
    | iterate _ _ _ h' => rw [h] at h'; simp at h'
  | iterate st _ _ h hd =>
    cases h' with
    | new_fail h' => rw [h] at h'; simp at h'
    | iterate _ _ _ h' hd' =>
      rw [h] at h'; simp at h'; subst h'
      exact drainsF_det hd hd'

/-- From this position of the block iterator the elements `es` are handed out, and then it ends with `r`. -/
def StartsF (fa : ReadFaults) (z : Zlib) (file : Bytes) (it : BlobIter) (es : List Element) (r : End) : Prop :=
  (createElementIteratorF fa z file it = .panic ∧ es = [] ∧ r = .panic) ∨
  ∃ st, createElementIteratorF fa z file it = .ok st ∧ ElementIter.DrainsF fa z file st es r

theorem startsF_block {fa : ReadFaults} {z : Zlib} {file : Bytes} {it it' : BlobIter} {es es' : List Element} {r : End}
    (hb : nextBlockF fa z file it = .ok (some (.data es, it'))) (h : StartsF fa z file it' es' r) : StartsF fa z file it (es ++ es') r := by
  right
  refine ⟨⟨it', some es⟩, by simp [createElementIteratorF, hb], ?_⟩
  have hd : ElementIter.DrainsF fa z file ⟨it', some []⟩ es' r := by
    rcases h with ⟨h, rfl, rfl⟩ | ⟨st, h, hd⟩
    · exact .fail _ (.fail _ h)
    · cases hd with
      | done _ st' hn => exact .done _ st' (.again _ _ _ h hn)
      | fail _ hn => exact .fail _ (.again _ _ _ h hn)
      | item _ st' e es r hn hd => exact .item _ st' e es r (.again _ _ _ h hn) hd
  clear hb
  induction es with
  | nil => exact hd
  | cons e cur ih => exact .item _ _ _ _ _ (.item it' e cur) ih

theorem next_index {file : Bytes} {it it' : BlobIter} {d : BlobDesc} (h : it.next file = .ok (some (d, it'))) :
    d.index = it.index ∧ it'.index = it.index + 1 := by
  unfold BlobIter.next at h
  simp only at h
  split at h
  · simp at h
  · split at h
    · split at h
      · cases h
      · split at h
        · simp at h
        · split at h
          · simp at h
          · simp only [Out.ok.injEq, Option.some.injEq, Prod.mk.injEq] at h
            obtain ⟨rfl, rfl⟩ := h
            exact ⟨rfl, rfl⟩
    · simp at h

theorem nextBlockF_clean {fa : ReadFaults} {z : Zlib} {file : Bytes} {it it' : BlobIter} {b : FileBlock} (h : nextBlock z file it = .ok (some (b, it')))
    (hf : FrameClean fa it.index) (hb : BodyClean fa it.index) : nextBlockF fa z file it = .ok (some (b, it')) ∧ it'.index = it.index + 1 := by
  unfold nextBlock at h
  unfold nextBlockF
  rw [nextF_clean hf]
  cases hn : it.next file with
  | err => rw [hn] at h; cases h
  | panic => rw [hn] at h; cases h
  | ok o =>
    rw [hn] at h
    cases o with
    | none => simp at h
    | some x =>
      obtain ⟨d, it1⟩ := x
      obtain ⟨h1, h2⟩ := next_index hn
      simp only at h ⊢
      rw [fromF_clean (by rw [h1]; exact hb)]
      refine ⟨h, ?_⟩
      cases e : FileBlock.fromBlobDesc z file d with
      | ok b' => rw [e] at h; simp at h; rw [← h.2]; exact h2
      | err => rw [e] at h; cases h
      | panic => rw [e] at h; cases h

theorem startsF_frame (fa : ReadFaults) (z : Zlib) (file : Bytes) (k : Nat) : ∀ (fuel : Nat) (it : BlobIter) (bs : List FileBlock),
    takeBlocks z file fuel it = (bs, .done) → (∀ b ∈ bs, isData b) → k ≤ bs.length →
    (∀ i < k, FrameClean fa (it.index + i) ∧ BodyClean fa (it.index + i)) → ¬ FrameClean fa (it.index + k) →
    StartsF fa z file it ((bs.take k).flatMap elementsOf) .done := by
  induction k with
  | zero =>
    intro fuel it bs h _ _ _ hf
    right
    have hn : it.next file ≠ .panic := by
      intro hn
      cases fuel with
      | zero => simp [takeBlocks] at h
      | succ fuel => simp [takeBlocks, nextBlock, hn] at h
    rcases nextF_fault (file := file) hf with h' | ⟨_, h'⟩
    · exact ⟨⟨it, none⟩, by simp [createElementIteratorF, nextBlockF, h'], .done _ _ (.ended it)⟩
    · exact absurd h' hn
  | succ k ih =>
    intro fuel it bs h hd hk hc hf
    cases fuel with
    | zero => simp [takeBlocks] at h
    | succ fuel =>
      unfold takeBlocks at h
      split at h
      · simp at h; subst h; simp at hk
      · rename_i b it' hn
        simp only [Prod.mk.injEq] at h
        obtain ⟨rfl, h2⟩ := h
        obtain ⟨h3, h4⟩ := nextBlockF_clean hn (hc 0 (by omega)).1 (hc 0 (by omega)).2
        have hrest := ih fuel it' (takeBlocks z file fuel it').1 (by rw [← h2]) (fun b hb => hd b (by simp [hb])) (by simp at hk; omega)
          (fun i hi => by rw [h4]; have := hc (i + 1) (by omega); rwa [show it.index + (i + 1) = it.index + 1 + i by omega] at this)
          (by rw [h4]; rwa [show it.index + 1 + k = it.index + (k + 1) by omega])
        cases b with
        | header i => have := hd (.header i) (by simp); simp [isData] at this
        | data es => exact startsF_block h3 hrest
      · simp at h

theorem startsF_body (fa : ReadFaults) (z : Zlib) (file : Bytes) (k : Nat) : ∀ (fuel : Nat) (it : BlobIter) (bs : List FileBlock),
    takeBlocks z file fuel it = (bs, .done) → (∀ b ∈ bs, isData b) → k < bs.length →
    (∀ i < k, FrameClean fa (it.index + i) ∧ BodyClean fa (it.index + i)) → FrameClean fa (it.index + k) → ¬ BodyClean fa (it.index + k) →
    StartsF fa z file it ((bs.take k).flatMap elementsOf) .panic := by
  induction k with
  | zero =>
    intro fuel it bs h _ hk _ hf hb
    left
    refine ⟨?_, by simp, rfl⟩
    cases fuel with
    | zero => simp [takeBlocks] at h
    | succ fuel =>
      unfold takeBlocks at h
      split at h
      · simp at h; subst h; simp at hk
      · rename_i b it' hn
        unfold createElementIteratorF nextBlockF
        rw [nextF_clean hf]
        unfold nextBlock at hn
        cases hnn : it.next file with
        | err => rw [hnn] at hn
        | panic => rw [hnn] at hn
        | ok o =>
          cases o with
          | none => rw [hnn] at hn; simp at hn
          | some x =>
            obtain ⟨d, it1⟩ := x
            obtain ⟨h1, _⟩ := next_index hnn
            simp only
            cases e : FileBlock.fromBlobDescF fa z file d with
            | ok b => exact absurd e (fromF_fault (by rw [h1]; exact hb) b)
            | err => rfl
            | panic => rfl
      · simp at h
  | succ k ih =>
    intro fuel it bs h hd hk hc hf hb
    cases fuel with
    | zero => simp [takeBlocks] at h
    | succ fuel =>
      unfold takeBlocks at h
      split at h
      · simp at h; subst h; simp at hk
      · rename_i b it' hn
        simp only [Prod.mk.injEq] at h
        obtain ⟨rfl, h2⟩ := h
        obtain ⟨h3, h4⟩ := nextBlockF_clean hn (hc 0 (by omega)).1 (hc 0 (by omega)).2
        have hrest := ih fuel it' (takeBlocks z file fuel it').1 (by rw [← h2]) (fun b hb => hd b (by simp [hb])) (by simp at hk; omega)
          (fun i hi => by rw [h4]; have := hc (i + 1) (by omega); rwa [show it.index + (i + 1) = it.index + 1 + i by omega] at this)
          (by rw [h4]; rwa [show it.index + 1 + k = it.index + (k + 1) by omega])
          (by rw [h4]; rwa [show it.index + 1 + k = it.index + (k + 1) by omega])
        cases b with
        | header i => have := hd (.header i) (by simp); simp [isData] at this
        | data es => exact startsF_block h3 hrest
      · simp at h

theorem readsF_starts {fa : ReadFaults} {z : Zlib} {file : Bytes} {first : FileBlock} {it : BlobIter} {es : List Element} {r : End}
    (hn : nextBlockF fa z file {} = .ok (some (first, it))) (h : StartsF fa z file it es r) : ReadsElementsF fa z file es r := by
  rcases h with ⟨h, rfl, rfl⟩ | ⟨st, h, hd⟩
  · exact .new_fail (by simp [ElementIter.newF, hn, h])
  · exact .iterate st _ _ (by simp [ElementIter.newF, hn, h]) hd

theorem hasBlocks_cons {z : Zlib} {file : Bytes} {first : FileBlock} {bs : List FileBlock} (h : HasBlocks z file (first :: bs)) :
    ∃ fuel it, nextBlock z file {} = .ok (some (first, it)) ∧ takeBlocks z file fuel it = (bs, .done) := by
  obtain ⟨fuel, h⟩ := h
  cases fuel with
  | zero => simp [takeBlocks] at h
  | succ fuel =>
    unfold takeBlocks at h
    split at h
    · simp at h
    · rename_i b it' hn
      simp only [Prod.mk.injEq, List.cons.injEq] at h
      obtain ⟨⟨rfl, h1⟩, h2⟩ := h
      exact ⟨fuel, it', hn, Prod.ext h1 h2⟩
    · simp at h

/-- C80: an error while the body of a block is read is a panic, after exactly the elements of the blocks before it. -/
theorem C80_body (fa : ReadFaults) (z : Zlib) (file : Bytes) (first : FileBlock) (bs : List FileBlock) (hb : HasBlocks z file (first :: bs))
    (hd : ∀ b ∈ bs, isData b) (k : Nat) (hk : k < bs.length) (hc : ∀ i ≤ k, FrameClean fa i ∧ BodyClean fa i) (hf : FrameClean fa (k + 1))
    (hbad : ¬ BodyClean fa (k + 1)) (es : List Element) (r : End) :
    ReadsElementsF fa z file es r ↔ es = (bs.take k).flatMap elementsOf ∧ r = .panic := by
  obtain ⟨fuel, it, hn, ht⟩ := hasBlocks_cons hb
  obtain ⟨h1, h2⟩ := nextBlockF_clean hn (hc 0 (by omega)).1 (hc 0 (by omega)).2
  simp only [Nat.zero_add] at h2
  have key := readsF_starts h1 (startsF_body fa z file k fuel it bs ht hd hk
    (fun i hi => by rw [h2]; exact hc (1 + i) (by omega)) (by rwa [h2, Nat.add_comm]) (by rwa [h2, Nat.add_comm]))
  exact ⟨fun h => readsF_det h key, fun ⟨h, h'⟩ => h ▸ h' ▸ key⟩

/-- C80, as it is: an error while the header of a frame is read looks like the end of the file. The elements of that block and of all blocks after it are not
delivered, and nothing tells. -/
theorem C80_silent (fa : ReadFaults) (z : Zlib) (file : Bytes) (first : FileBlock) (bs : List FileBlock) (hb : HasBlocks z file (first :: bs))
    (hd : ∀ b ∈ bs, isData b) (k : Nat) (hk : k ≤ bs.length) (hc : ∀ i ≤ k, FrameClean fa i ∧ BodyClean fa i) (hbad : ¬ FrameClean fa (k + 1))
    (es : List Element) (r : End) :
    ReadsElementsF fa z file es r ↔ es = (bs.take k).flatMap elementsOf ∧ r = .done := by
  obtain ⟨fuel, it, hn, ht⟩ := hasBlocks_cons hb
  obtain ⟨h1, h2⟩ := nextBlockF_clean hn (hc 0 (by omega)).1 (hc 0 (by omega)).2
  simp only [Nat.zero_add] at h2
  have key := readsF_starts h1 (startsF_frame fa z file k fuel it bs ht hd hk
    (fun i hi => by rw [h2]; exact hc (1 + i) (by omega)) (by rwa [h2, Nat.add_comm]))
  exact ⟨fun h => readsF_det h key, fun ⟨h, h'⟩ => h ▸ h' ▸ key⟩

/-- C80: opening a file never succeeds with anything but the metadata of the file: an error gives an error or a panic. -/
theorem C80_open (fa : ReadFaults) (z : Zlib) (file : Bytes) :
    openReaderF fa z file = openReader z file ∨ openReaderF fa z file = .err ∨ openReaderF fa z file = .panic := by
  unfold openReaderF openReader
  rcases nextBlockF_cases fa z file {} with h | h | ⟨h, _⟩
  · left; rw [h]; rfl
  · right; right; rw [h]
  · right; left; rw [h]

/-! ### `parallel_for_each` -/

variable {T : Nat} {σ : Type}

theorem forEach_share {cmds : List (Option (List Element))} {p : ForEach T σ} (hi : ForEach.Inv cmds p) (k : Nat) (c : Option (List Element))
    (hc : cmds[k]? = some c) : (p.log.filter fun x => x.2.1 = k).map (·.2.2.1) <+: c.getD [] ∧
      (p.returned = true → (∀ x ∈ p.log, x.2.2.2 = true) → (p.log.filter fun x => x.2.1 = k).map (·.2.2.1) = c.getD []) := by
  have hnil : ForEach.callsFor p k = [] → (p.log.filter fun x => x.2.1 = k).map (·.2.2.1) <+: c.getD [] := by
    intro h
    unfold ForEach.callsFor at h
    rw [h]
    exact List.nil_prefix
  by_cases hs : k < p.sent
  · by_cases hq : k ∈ p.queue.map (·.1)
    · obtain ⟨x, hx, rfl⟩ := List.mem_map.1 hq
      refine ⟨hnil (hi.queue x hx).2.2, fun hr => ?_⟩
      rw [(hi.joined hr).2.1] at hx
      simp at hx
    · by_cases hr : ∃ i r, p.running i = some (k, r)
      · obtain ⟨i, r, hr⟩ := hr
        obtain ⟨_, _, done, h1, h2⟩ := hi.running i k r hr
        rw [hc] at h1
        injection h1 with h1
        subst h1
        unfold ForEach.callsFor at h2
        refine ⟨by rw [h2]; simp [Function.comp_def], fun hret => ?_⟩
        rw [(hi.joined hret).2.2 i] at hr
        cases hr
      · obtain ⟨c', h1, h2⟩ := hi.ended k hs hq (fun i r h => hr ⟨i, r, h⟩)
        rw [hc] at h1
        injection h1 with h1
        subst h1
        cases h2 with
        | all i es h =>
          unfold ForEach.callsFor at h
          rw [h]
          simp [Function.comp_def]
        | failed i pre e post h =>
          unfold ForEach.callsFor at h
          refine ⟨by rw [h]; simp [Function.comp_def], fun _ hok => ?_⟩
          have hm : (i, k, e, false) ∈ p.log := by
            have : (i, k, e, false) ∈ p.log.filter fun x => x.2.1 = k := by rw [h]; simp
            exact (List.mem_filter.mp this).1
          exact absurd (hok _ hm) (by simp)
        | unreadable h =>
          unfold ForEach.callsFor at h
          rw [h]
          simp
  · have := hi.ahead k (by omega)
    refine ⟨hnil this, fun hr => ?_⟩
    have h4 := hi.left
    rw [(hi.joined hr).1] at h4
    have := List.drop_eq_nil_iff.mp h4.symm
    have := (List.getElem?_eq_some_iff.mp hc).1
    omega

theorem forEach_parts {cmds : List (Option (List Element))} {p : ForEach T σ} (hi : ForEach.Inv cmds p) :
    (p.log.map (·.2.2.1)).Subperm (cmds.flatMap (·.getD [])) ∧
    (p.returned = true → (∀ x ∈ p.log, x.2.2.2 = true) → (p.log.map (·.2.2.1)).Perm (cmds.flatMap (·.getD []))) := by
  have hbound : ∀ x ∈ p.log, x.2.1 < cmds.length := by
    intro x hx
    by_contra hn
    have := hi.ahead x.2.1 (by have := hi.le; omega)
    have hm : x ∈ ForEach.callsFor p x.2.1 := List.mem_filter.mpr ⟨hx, by simp⟩
    rw [this] at hm
    simp at hm
  have h1 := (Pool.perm_parts (fun x : Fin T × Nat × Element × Bool => x.2.1) cmds.length p.log hbound).map (·.2.2.1)
  rw [List.map_flatMap] at h1
  have hr : cmds.flatMap (·.getD []) = (List.range cmds.length).flatMap fun k => ((cmds[k]?).getD none).getD [] := by
    rw [List.flatMap_def, List.flatMap_def]
    congr 1
    apply List.ext_getElem
    · simp
    · intro k hk1 hk2
      simp at hk1
      simp [List.getElem?_eq_getElem hk1]
  rw [hr]
  constructor
  · refine (h1.subperm).trans (List.Sublist.subperm ?_)
    have : ∀ l : List Nat, (∀ k ∈ l, k < cmds.length) → (l.flatMap fun k => (p.log.filter fun x => x.2.1 = k).map (·.2.2.1)).Sublist
        (l.flatMap fun k => ((cmds[k]?).getD none).getD []) := by
      intro l
      induction l with
      | nil => intro _; simp
      | cons k l ih =>
        intro hl
        simp only [List.flatMap_cons]
        refine List.Sublist.append ?_ (ih fun k hk => hl k (by simp [hk]))
        have hk : k < cmds.length := hl k (by simp)
        have := (forEach_share hi k _ (List.getElem?_eq_getElem hk)).1.sublist
        simpa [List.getElem?_eq_getElem hk] using this
    exact this _ (fun k hk => List.mem_range.1 hk)
  · intro hret hok
    refine h1.trans (List.Perm.of_eq ?_)
    rw [List.flatMap_def, List.flatMap_def]
    congr 1
    apply List.map_congr_left
    intro k hk
    have hk := List.mem_range.1 hk
    have := (forEach_share hi k _ (List.getElem?_eq_getElem hk)).2 hret hok
    simpa [List.getElem?_eq_getElem hk] using this

theorem iterationCallsF_cases (fa : ReadFaults) (z : Zlib) (file : Bytes) (d : BlobDesc) :
    iterationCallsF fa z file d = iterationCalls z file d ∨ iterationCallsF fa z file d = none := by
  unfold iterationCallsF iterationCalls
  by_cases hb : BodyClean fa d.index
  · rw [fromF_clean hb]; exact .inl rfl
  · right
    cases e : FileBlock.fromBlobDescF fa z file d with
    | ok b => exact absurd e (fromF_fault hb b)
    | err => rfl
    | panic => rfl

theorem takeBlobsF_prefix (fa : ReadFaults) (file : Bytes) (fuel : Nat) : ∀ (fuel' : Nat) (it : BlobIter) (ds ds' : List BlobDesc) (e : End),
    takeBlobsF fa file fuel it = (ds, .done) → takeBlobs file fuel' it = (ds', e) → e ≠ .more → ds <+: ds' := by
  induction fuel with
  | zero => intro fuel' it ds ds' e h _; simp [takeBlobsF] at h
  | succ fuel ih =>
    intro fuel' it ds ds' e h h' he
    cases fuel' with
    | zero => simp [takeBlobs] at h'; exact absurd h'.2.symm he
    | succ fuel' =>
      unfold takeBlobsF at h
      split at h
      · simp at h; subst h; exact List.nil_prefix
      · rename_i d it' hn
        simp only [Prod.mk.injEq] at h
        obtain ⟨rfl, h2⟩ := h
        have hc : it.next file = .ok (some (d, it')) := by
          by_cases hf : FrameClean fa it.index
          · rw [← nextF_clean hf]; exact hn
          · rcases nextF_fault (file := file) hf with h | ⟨h, _⟩
            · rw [h] at hn; simp at hn
            · rw [h] at hn; cases hn
        unfold takeBlobs at h'
        rw [hc] at h'
        simp only [Prod.mk.injEq] at h'
        obtain ⟨rfl, h3⟩ := h'
        exact (List.prefix_cons_inj _).2 (ih fuel' it' _ _ e (Prod.ext rfl h2) (Prod.ext rfl h3) he)
      · simp at h

/-- C80: whatever fails while `parallel_for_each` reads a file, at every moment the calls made are calls with elements of the file, each at most once, and at most
one Sentinel for each block. -/
theorem C80_parallel (fa : ReadFaults) (z : Zlib) (file : Bytes) (bs : List FileBlock) (hb : HasBlocks z file bs)
    (f : Fin T → Element → σ → σ × Bool) (cap : Nat) (s : σ) (ds : List BlobDesc) (p : ForEach T σ) (h : ForEachOccursF fa z file f cap s ds p) :
    (p.log.map (·.2.2.1)).Subperm (bs.flatMap callsFor) := by
  obtain ⟨fuel, p, hds, hs⟩ := h
  obtain ⟨fuel', hb⟩ := hb
  obtain ⟨ds', h1, h2, _⟩ := commands_of_blocks fuel' {} bs hb
  have hpre := takeBlobsF_prefix fa file fuel fuel' {} ds ds' .done hds h1 (by simp)
  refine (forEach_parts (ForEach.steps_inv (ForEach.init_inv _ s) hs)).1.trans (List.Sublist.subperm ?_)
  have hall : bs.flatMap callsFor = ds'.flatMap fun d => (iterationCalls z file d).getD [] := by
    clear * - h2
    induction ds' generalizing bs with
    | nil => simp at h2; simp [h2]
    | cons d ds' ih =>
      cases bs with
      | nil => simp [List.mapM_cons, Option.bind_eq_some_iff] at h2
      | cons b bs =>
        simp only [List.mapM_cons, Option.pure_def, Option.bind_eq_bind, Option.bind_eq_some_iff, Option.some.injEq, List.map_cons, List.cons.injEq] at h2
        obtain ⟨a, ha, as, has, rfl, h⟩ := h2
        simp only [List.flatMap_cons, ha, Option.getD_some]
        rw [← ih bs (by rw [has, h])]
  rw [hall]
  obtain ⟨t, rfl⟩ := hpre
  rw [List.flatMap_append]
  refine List.Sublist.trans ?_ (List.sublist_append_left _ _)
  clear * -
  induction ds with
  | nil => simp
  | cons d ds ih =>
    simp only [List.map_cons, List.flatMap_cons]
    refine List.Sublist.append ?_ ih
    rcases iterationCallsF_cases fa z file d with h | h
    · rw [h]
    · rw [h]; simp

theorem commandsF_cut (fa : ReadFaults) (z : Zlib) (file : Bytes) (k : Nat) : ∀ (fuel fuel' : Nat) (it : BlobIter) (bs : List FileBlock) (ds : List BlobDesc),
    takeBlocks z file fuel it = (bs, .done) → takeBlobsF fa file fuel' it = (ds, .done) → k ≤ bs.length →
    (∀ i < k, FrameClean fa (it.index + i) ∧ BodyClean fa (it.index + i)) → ¬ FrameClean fa (it.index + k) →
    ds.map (iterationCallsF fa z file) = (bs.take k).map fun b => some (callsFor b) := by
  induction k with
  | zero =>
    intro fuel fuel' it bs ds h h' _ _ hf
    have hn : it.next file ≠ .panic := by
      intro hn
      cases fuel with
      | zero => simp [takeBlocks] at h
      | succ fuel => simp [takeBlocks, nextBlock, hn] at h
    cases fuel' with
    | zero => simp [takeBlobsF] at h'
    | succ fuel' =>
      rcases nextF_fault (file := file) hf with h1 | ⟨_, h1⟩
      · simp [takeBlobsF, h1] at h'
        simp [← h']
      · exact absurd h1 hn
  | succ k ih =>
    intro fuel fuel' it bs ds h h' hk hc hf
    cases fuel with
    | zero => simp [takeBlocks] at h
    | succ fuel =>
      cases fuel' with
      | zero => simp [takeBlobsF] at h'
      | succ fuel' =>
        unfold takeBlocks at h
        split at h
        · simp at h; subst h; simp at hk
        · rename_i b it' hn
          simp only [Prod.mk.injEq] at h
          obtain ⟨rfl, h2⟩ := h
          have hcl := hc 0 (by omega)
          unfold nextBlock at hn
          unfold takeBlobsF at h'
          rw [nextF_clean hcl.1] at h'
          cases hnn : it.next file with
          | err => rw [hnn] at hn; cases hn
          | panic => rw [hnn] at hn; cases hn
          | ok o =>
            cases o with
            | none => rw [hnn] at hn; simp at hn
            | some x =>
              obtain ⟨d, it1⟩ := x
              obtain ⟨i1, i2⟩ := next_index hnn
              rw [hnn] at hn h'
              simp only at hn
              simp only [Prod.mk.injEq] at h'
              obtain ⟨rfl, h3⟩ := h'
              cases e : FileBlock.fromBlobDesc z file d with
              | err => rw [e] at hn; cases hn
              | panic => rw [e] at hn; cases hn
              | ok b' =>
                rw [e] at hn
                simp only [Out.ok.injEq, Option.some.injEq, Prod.mk.injEq] at hn
                obtain ⟨rfl, rfl⟩ := hn
                have hit : iterationCallsF fa z file d = some (callsFor b') := by
                  unfold iterationCallsF
                  rw [fromF_clean (by rw [i1]; exact hcl.2), e]
                  cases b' <;> rfl
                simp only [List.map_cons, List.take_succ_cons, hit]
                rw [ih fuel fuel' it1 (takeBlocks z file fuel it1).1 (takeBlobsF fa file fuel' it1).1 (Prod.ext rfl h2) (Prod.ext rfl h3) (by simp at hk; omega)
                  (fun i hi => by rw [i2]; have := hc (i + 1) (by omega); rwa [show it.index + (i + 1) = it.index + 1 + i by omega] at this)
                  (by rw [i2]; rwa [show it.index + 1 + k = it.index + (k + 1) by omega])]
        · simp at h

/-- C80, as it is: when the header of the `k`-th frame cannot be read and nothing else fails, `parallel_for_each` returns after calls with the elements of the
blocks before it only; `count_objects` returns their number. -/
theorem C80_parallel_silent (fa : ReadFaults) (z : Zlib) (file : Bytes) (bs : List FileBlock) (hb : HasBlocks z file bs) (k : Nat) (hk : k ≤ bs.length)
    (hc : ∀ i < k, FrameClean fa i ∧ BodyClean fa i) (hbad : ¬ FrameClean fa k)
    (f : Fin T → Element → σ → σ × Bool) (cap : Nat) (s : σ) (ds : List BlobDesc) (p : ForEach T σ) (h : ForEachOccursF fa z file f cap s ds p)
    (hr : p.returned = true) (hok : ∀ x ∈ p.log, x.2.2.2 = true) :
    (p.log.map (·.2.2.1)).Perm ((bs.take k).flatMap callsFor) := by
  obtain ⟨fuel, p, hds, hs⟩ := h
  obtain ⟨fuel', hb⟩ := hb
  have := (forEach_parts (ForEach.steps_inv (ForEach.init_inv _ s) hs)).2 hr hok
  rw [commandsF_cut fa z file k fuel' fuel {} bs ds hb hds hk (by simpa using hc) (by simpa using hbad), List.flatMap_map] at this
  simpa using this

/-! ### A concrete file -/

/-- The blob header of the third frame (of four) cannot be read. -/
def exFrameFault : ReadFaults := ⟨fun k j => k == 2 && j == 2, fun _ _ => false⟩

/-- The body of the third blob cannot be read. -/
def exBodyFault : ReadFaults := ⟨fun _ _ => false, fun k j => k == 2 && j == 2⟩

theorem exFrameFault_clean (i : Nat) (hi : i ≠ 2) : FrameClean exFrameFault i ∧ BodyClean exFrameFault i :=
  ⟨fun j _ => by simp [exFrameFault, hi], fun _ _ => rfl⟩

theorem exBlocks_data : ∀ b ∈ exBlocks.map fun b => FileBlock.data (b.map Element.quant), isData b := by
  intro b hb
  obtain ⟨a, -, rfl⟩ := List.mem_map.1 hb
  rfl

/-- Two of the four elements are delivered, and the loop ends as if there were no more. -/
example : ReadsElementsF exFrameFault exZ exParFile [.node exNode.quant, .node { exNode with id := 8 }.quant] .done :=
  (C80_silent exFrameFault exZ exParFile _ _ exPar_blocks exBlocks_data 1 (by decide) (fun i hi => exFrameFault_clean i (by omega))
    (fun h => absurd (h 2 (by omega)) (by decide)) _ _).2 ⟨rfl, rfl⟩

/-- Here the loop panics after the two. -/
example : ReadsElementsF exBodyFault exZ exParFile [.node exNode.quant, .node { exNode with id := 8 }.quant] .panic :=
  (C80_body exBodyFault exZ exParFile _ _ exPar_blocks exBlocks_data 1 (by decide)
    (fun i hi => ⟨fun _ _ => rfl, fun j _ => by simp [exBodyFault]; omega⟩) (fun _ _ => rfl) (fun h => absurd (h 2 (by omega)) (by decide)) _ _).2 ⟨rfl, rfl⟩

end OsmIo
