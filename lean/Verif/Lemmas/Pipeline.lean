import Verif.Model.ParallelWriter
import Verif.Spec.File
import Mathlib.Data.List.Perm.Basic
import Mathlib.Data.List.Nodup
/-! # The encoding and writing pools keep the order of blocks -/
set_option linter.unusedSimpArgs false
set_option linter.flexible false
namespace OsmIo
open Spec
namespace Pipeline

/-- The blobs of all blocks with their indices. -/
def target (z : Zlib) (c : CompressionType) (blocks : List (List Element)) : List (Nat × Blob) :=
  (blocks.zipIdx 1).map fun x => (x.2, (FileBlock.data x.1).serialize z c)

/-- A list whose `j`-th entry has key `j + 1`. -/
def Numbered (T : List (Nat × Blob)) : Prop := ∀ j x, T[j]? = some x → x.1 = j + 1

theorem target_numbered (z : Zlib) (c : CompressionType) (blocks : List (List Element)) : Numbered (target z c blocks) := by
  intro j x h
  simp [target, List.getElem?_zipIdx] at h
  obtain ⟨es, h1, rfl⟩ := h
  simp; omega

theorem numbered_mem_drop {T : List (Nat × Blob)} (hT : Numbered T) {n : Nat} {x : Nat × Blob} (h : x ∈ T.drop n) : n < x.1 ∧ T[x.1 - 1]? = some x := by
  obtain ⟨j, hj⟩ := List.mem_iff_getElem?.mp h
  rw [List.getElem?_drop] at hj
  have := hT _ _ hj
  refine ⟨by omega, ?_⟩
  rw [this]
  simpa using hj

theorem numbered_nodup {T : List (Nat × Blob)} (hT : Numbered T) : (T.map (·.1)).Nodup := by
  rw [List.nodup_iff_getElem?_ne_getElem?]
  intro i j hij hj
  simp at hj ⊢
  have h1 := hT i T[i] (List.getElem?_eq_getElem (by omega))
  have h2 := hT j T[j] (List.getElem?_eq_getElem hj)
  rw [List.getElem?_eq_getElem (by omega : i < T.length), List.getElem?_eq_getElem hj]
  simp
  omega

theorem numbered_drop_nodup {T : List (Nat × Blob)} (hT : Numbered T) (n : Nat) : ((T.drop n).map (·.1)).Nodup := by
  rw [List.map_drop]
  exact (numbered_nodup hT).sublist (List.drop_sublist _ _)

theorem perm_filter_key {m : List (Nat × Blob)} (hn : (m.map (·.1)).Nodup) {x : Nat × Blob} (hx : x ∈ m) :
    m.Perm (x :: m.filter fun y => y.1 != x.1) := by
  induction m with
  | nil => simp at hx
  | cons y m ih =>
    simp only [List.map_cons, List.nodup_cons] at hn
    simp at hx
    rcases hx with rfl | hx
    · have : (x :: m).filter (fun y => y.1 != x.1) = m := by
        rw [List.filter_cons_of_neg (by simp)]
        rw [List.filter_eq_self]
        intro y hy
        simp
        intro he
        exact hn.1 (by rw [← he]; exact List.mem_map.mpr ⟨y, hy, rfl⟩)
      rw [this]
    · have hne : y.1 ≠ x.1 := by
        intro he
        exact hn.1 (by rw [he]; exact List.mem_map.mpr ⟨x, hx, rfl⟩)
      rw [List.filter_cons_of_pos (by simp [hne])]
      exact ((ih hn.2 hx).cons y).trans (List.Perm.swap _ _ _)

theorem writeReady_spec {T : List (Nat × Blob)} (hT : Numbered T) (fuel : Nat) : ∀ (m : List (Nat × Blob)) (i : Nat) (w : Writer) (o : List (Nat × Blob)),
    m.length < fuel → 1 ≤ i → (o ++ m).Perm (T.drop (i - 1)) →
    ∃ i', (writeReady fuel m i w).2.1 = i' ∧ i ≤ i' ∧ i' - 1 ≤ max T.length (i - 1) ∧ (o ++ (writeReady fuel m i w).1).Perm (T.drop (i' - 1)) ∧
      (∀ x ∈ (writeReady fuel m i w).1, x.1 ≠ i') ∧
      (writeReady fuel m i w).2.2 = { w with file := w.file ++ (((T.drop (i - 1)).take (i' - i)).map fun x => blobBytes x.2.1 x.2.2).flatten } := by
  induction fuel with
  | zero => intro m i w o h; omega
  | succ fuel ih =>
    intro m i w o hm hi hp
    have hnd : ((o ++ m).map (·.1)).Nodup := by
      have := hp.map (·.1)
      exact this.nodup_iff.mpr (numbered_drop_nodup hT _)
    have hndm : (m.map (·.1)).Nodup := by
      rw [List.map_append] at hnd
      exact (List.nodup_append.mp hnd).2.1
    unfold writeReady mapRemove
    cases hf : m.find? (fun x => x.1 == i) with
    | none =>
      simp only
      refine ⟨i, rfl, le_refl _, by omega, hp, ?_, by simp⟩
      intro x hx
      have := List.find?_eq_none.mp hf x hx
      simpa using this
    | some x =>
      have hx := List.mem_of_find?_eq_some hf
      have hxi : x.1 = i := by simpa using List.find?_some hf
      simp only
      have hxT : x ∈ T.drop (i - 1) := hp.mem_iff.mp (by simp [hx])
      obtain ⟨h1, h2⟩ := numbered_mem_drop hT hxT
      rw [hxi] at h2
      have hlt : i - 1 < T.length := (List.getElem?_eq_some_iff.mp h2).1
      have hdrop : T.drop (i - 1) = x :: T.drop i := by
        rw [List.drop_eq_getElem_cons hlt, show i - 1 + 1 = i by omega]
        congr 1
        exact (List.getElem?_eq_some_iff.mp h2).2
      have hpm := perm_filter_key hndm hx
      rw [hxi] at hpm
      have hlen : (m.filter fun y => y.1 != i).length < fuel := by
        have := hpm.length_eq
        simp at this
        omega
      have hp' : (o ++ m.filter fun y => y.1 != i).Perm (T.drop (i + 1 - 1)) := by
        have : (x :: (o ++ m.filter fun y => y.1 != i)).Perm (x :: T.drop i) := by
          rw [← hdrop]
          exact (List.perm_middle.symm.trans (hpm.symm.append_left o)).trans hp
        simpa using this.cons_inv
      obtain ⟨i', e1, e2, e3, e4, e5, e6⟩ := ih (m.filter fun y => y.1 != i) (i + 1) (w.writeBlob x.2.1 x.2.2) o hlen (by omega) hp'
      refine ⟨i', e1, by omega, by omega, e4, e5, ?_⟩
      rw [e6, hdrop, show i' - i = (i' - (i + 1)) + 1 by omega]
      simp [Writer.writeBlob]

/-- All blobs that are not written yet, wherever they are. -/
def items (z : Zlib) (c : CompressionType) (p : Pipeline) : List (Nat × Blob) :=
  (p.todo ++ p.queue ++ p.encoding).map (fun x => (x.1, (FileBlock.data x.2).serialize z c)) ++ p.writeQueue ++ p.held

structure Inv (z : Zlib) (c : CompressionType) (w0 : Writer) (blocks : List (List Element)) (p : Pipeline) : Prop where
  pos : 1 ≤ p.next
  le : p.next - 1 ≤ blocks.length
  perm : (items z c p).Perm ((target z c blocks).drop (p.next - 1))
  held : ∀ x ∈ p.held, x.1 ≠ p.next
  file : p.writer = { w0 with file := w0.file ++ blockBytes z c ((blocks.take (p.next - 1)).map .data) }

theorem init_inv (z : Zlib) (info : FileInfo) (c : CompressionType) (blocks : List (List Element)) :
    Inv z c ((Writer.fromFileInfo info c).writeHeader z) blocks (init z info c blocks) := by
  refine ⟨le_refl _, by simp [init], ?_, by simp [init], by simp [init, blockBytes]⟩
  simp [items, init, target, Function.comp_def]

theorem target_length (z : Zlib) (c : CompressionType) (blocks : List (List Element)) : (target z c blocks).length = blocks.length := by simp [target]

theorem target_bytes (z : Zlib) (c : CompressionType) (blocks : List (List Element)) (a b : Nat) :
    ((((target z c blocks).drop a).take b).map fun x => blobBytes x.2.1 x.2.2).flatten =
      blockBytes z c (((blocks.drop a).take b).map .data) := by
  unfold blockBytes
  congr 1
  have : (target z c blocks).map (fun x => blobBytes x.2.1 x.2.2) =
      blocks.map fun b => blobBytes ((FileBlock.data b).serialize z c).1 ((FileBlock.data b).serialize z c).2 := by
    simp only [target, List.map_map]
    conv_rhs => rw [← List.zipIdx_map_fst 1 blocks, List.map_map]
    rfl
  rw [List.map_take, List.map_drop, this, List.map_map, ← List.map_drop, ← List.map_take]
  rfl

theorem step_inv {z : Zlib} {c : CompressionType} {w0 : Writer} {blocks : List (List Element)} {n : Nat} {p q : Pipeline}
    (h : Inv z c w0 blocks p) (hs : Step z c n p q) : Inv z c w0 blocks q := by
  cases hs with
  | submit b rest ht =>
    refine ⟨h.pos, h.le, ?_, h.held, h.file⟩
    refine List.Perm.trans ?_ h.perm
    simp only [items, ht]
    apply List.Perm.append_right
    apply List.Perm.append_right
    apply List.Perm.map
    apply List.Perm.append_right
    simp
    rw [← List.append_assoc]
    exact List.perm_append_singleton b _
  | take l r b hq _ =>
    refine ⟨h.pos, h.le, ?_, h.held, h.file⟩
    refine List.Perm.trans ?_ h.perm
    simp only [items, hq]
    apply List.Perm.append_right
    apply List.Perm.append_right
    apply List.Perm.map
    simp only [List.append_assoc]
    apply List.Perm.append_left
    apply List.Perm.append_left
    rw [← List.append_assoc, List.cons_append]
    refine (List.perm_append_singleton b (r ++ p.encoding)).trans ?_
    exact List.Perm.refl _
  | encode l r k es he =>
    refine ⟨h.pos, h.le, ?_, h.held, h.file⟩
    refine List.Perm.trans ?_ h.perm
    simp only [items, he]
    apply List.Perm.append_right
    simp only [List.map_append, List.map_cons, List.append_assoc, List.cons_append]
    apply List.Perm.append_left
    apply List.Perm.append_left
    apply List.Perm.append_left
    rw [← List.append_assoc]
    exact (List.perm_append_singleton _ _)
  | write k b rest hw =>
    -- the index is not held yet
    have hnd : ((items z c p).map (·.1)).Nodup :=
      (h.perm.map (·.1)).nodup_iff.mpr (numbered_drop_nodup (target_numbered z c blocks) _)
    have hk : ∀ x ∈ p.held, x.1 ≠ k := by
      intro x hx he
      simp only [items, hw, List.map_append] at hnd
      have := (List.nodup_append.mp hnd).2.2 k (by simp) k (List.mem_map.mpr ⟨x, hx, he⟩)
      exact this rfl
    have hins : mapInsert k b p.held = (k, b) :: p.held := by
      unfold mapInsert
      rw [List.filter_eq_self.mpr]
      intro x hx
      simpa using hk x hx
    have hperm : ((p.todo ++ p.queue ++ p.encoding).map (fun x => (x.1, (FileBlock.data x.2).serialize z c)) ++ rest ++ ((k, b) :: p.held)).Perm
        ((target z c blocks).drop (p.next - 1)) := by
      refine List.Perm.trans ?_ h.perm
      simp only [items, hw, List.append_assoc]
      apply List.Perm.append_left
      exact List.perm_middle
    obtain ⟨i', e1, e2, e3, e4, e5, e6⟩ := writeReady_spec (target_numbered z c blocks) (((k, b) :: p.held).length + 1) ((k, b) :: p.held) p.next p.writer
      _ (by omega) h.pos hperm
    simp only [hins]
    refine ⟨?_, ?_, ?_, ?_, ?_⟩
    · simp only [e1]; have := h.pos; omega
    · simp only [e1]
      rw [target_length] at e3
      have := h.le
      omega
    · simp only [e1]
      exact e4
    · simp only [e1]; exact e5
    · simp only [e1]
      rw [e6, target_bytes, h.file]
      simp only [Writer.mk.injEq, true_and, and_true]
      rw [List.append_assoc]
      congr 1
      unfold blockBytes
      rw [← List.flatten_append, ← List.map_append, ← List.map_append]
      congr 3
      rw [show i' - 1 = (p.next - 1) + (i' - p.next) by have := h.pos; omega, List.take_add]

theorem steps_inv {z : Zlib} {c : CompressionType} {w0 : Writer} {blocks : List (List Element)} {n : Nat} {p q : Pipeline}
    (h : Inv z c w0 blocks p) (hs : Steps z c n p q) : Inv z c w0 blocks q := by
  induction hs with
  | refl => exact h
  | tail _ hs ih => exact step_inv ih hs

theorem drained_next {z : Zlib} {c : CompressionType} {w0 : Writer} {blocks : List (List Element)} {p : Pipeline}
    (h : Inv z c w0 blocks p) (hd : Drained p) : p.next - 1 = blocks.length ∧ p.held = [] := by
  have hp := h.perm
  simp only [items, hd.1, hd.2.1, hd.2.2.1, hd.2.2.2, List.append_nil, List.map_nil, List.nil_append] at hp
  by_cases hlt : p.next - 1 < blocks.length
  · exfalso
    have hlt' : p.next - 1 < (target z c blocks).length := by rw [target_length]; exact hlt
    have hm : (target z c blocks)[p.next - 1] ∈ p.held := by
      refine hp.mem_iff.mpr ?_
      rw [List.drop_eq_getElem_cons hlt']
      exact List.mem_cons_self
    have := target_numbered z c blocks (p.next - 1) _ (List.getElem?_eq_getElem hlt')
    have hpos := h.pos
    exact h.held _ hm (by omega)
  · have := h.le
    have he : p.next - 1 = blocks.length := by omega
    refine ⟨he, ?_⟩
    rw [he, ← target_length z c, List.drop_length] at hp
    exact List.perm_nil.mp hp

/-! ## Progress -/

/-- Steps still to do. -/
def workLeft (p : Pipeline) : Nat := 4 * p.todo.length + 3 * p.queue.length + 2 * p.encoding.length + p.writeQueue.length

theorem step_work {z : Zlib} {c : CompressionType} {n : Nat} {p q : Pipeline} (hs : Step z c n p q) : workLeft p = workLeft q + 1 := by
  cases hs with
  | submit b rest h => simp [workLeft, h]; omega
  | take l r b h _ => simp [workLeft, h]; omega
  | encode l r k es h => simp [workLeft, h]; omega
  | write k b rest h => simp [workLeft, h]; omega

theorem progress {z : Zlib} {c : CompressionType} {n : Nat} (hn : 0 < n) (p : Pipeline) (hd : ¬ Drained p) : ∃ q, Step z c n p q := by
  cases h4 : p.writeQueue with
  | cons x r => exact ⟨_, .write p x.1 x.2 r h4⟩
  | nil =>
    cases h3 : p.encoding with
    | cons x r => exact ⟨_, .encode p [] r x.1 x.2 h3⟩
    | nil =>
      cases h2 : p.queue with
      | cons x r => exact ⟨_, .take p [] r x h2 (by rw [h3]; simpa using hn)⟩
      | nil =>
        cases h1 : p.todo with
        | cons x r => exact ⟨_, .submit p x r h1⟩
        | nil => exact absurd ⟨h1, h2, h3, h4⟩ hd

theorem reaches_drained {z : Zlib} {c : CompressionType} {n : Nat} (hn : 0 < n) (p : Pipeline) : ∃ q, Steps z c n p q ∧ Drained q := by
  induction hw : workLeft p generalizing p with
  | zero =>
    by_cases hd : Drained p
    · exact ⟨p, .refl, hd⟩
    · obtain ⟨q, hq⟩ := progress (z := z) (c := c) hn p hd
      have := step_work hq; omega
  | succ k ih =>
    by_cases hd : Drained p
    · exact ⟨p, .refl, hd⟩
    · obtain ⟨q, hq⟩ := progress (z := z) (c := c) hn p hd
      have := step_work hq
      obtain ⟨r, hr, hd'⟩ := ih q (by omega)
      exact ⟨r, Relation.ReflTransGen.head hq hr, hd'⟩

end Pipeline
end OsmIo
