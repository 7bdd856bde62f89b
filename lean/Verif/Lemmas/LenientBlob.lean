import Verif.Lemmas.LenientMessages
/-! # `Blob` is read exactly by its rules -/
namespace OsmIo
open Wire
open Spec.Lenient (Entry FieldList Stored)

theorem blob_step_stored (m m' : Pb.Blob) (f : Field) (h : f.tag ∈ [1, 3, 4, 5, 6, 7]) :
    Pb.Blob.step m f = some m' ↔ ∃ d, Stored (entryOf f) d ∧ m' = { m with data := some d } := by
  obtain ⟨t, v⟩ := f
  simp only [List.mem_cons, List.not_mem_nil, or_false] at h
  rcases h with rfl | rfl | rfl | rfl | rfl | rfl <;> cases v <;>
    simp only [Pb.Blob.step, getBytes, entryOf, contentOf, Option.map_none, Option.map_some, reduceCtorEq, Option.some.injEq, false_iff] <;>
    first
    | (rintro ⟨d, hd, -⟩; cases hd)
    | (constructor
       · rintro rfl; exact ⟨_, by constructor, rfl⟩
       · rintro ⟨d, hd, rfl⟩; cases hd; rfl)

theorem blob_step_other (m : Pb.Blob) (f : Field) (h : f.tag ∉ [1, 3, 4, 5, 6, 7]) (h2 : f.tag ≠ 2) : Pb.Blob.step m f = some m := by
  obtain ⟨t, v⟩ := f
  simp only [Pb.Blob.step]
  split <;> simp_all

theorem blob_fold (raw : List Field) (m m' : Pb.Blob) : raw.foldlM Pb.Blob.step m = some m' ↔
    (vals 2 raw).foldlM (fun _ v => (getVarint toInt32 v).map some) m.raw_size = some m'.raw_size ∧
    ∃ ds : List Pb.BlobData, List.Forall₂ Stored ((raw.map entryOf).filter fun f => f.1 ∈ [1, 3, 4, 5, 6, 7]) ds ∧ m'.data = ds.getLast?.or m.data := by
  induction raw generalizing m with
  | nil =>
    obtain ⟨r, d⟩ := m
    obtain ⟨r', d'⟩ := m'
    simp [vals, seg, eq_comm]
  | cons f raw ih =>
    rw [List.foldlM_cons, Option.bind_eq_bind, Option.bind_eq_some_iff]
    simp only [ih]
    by_cases h : f.tag ∈ [1, 3, 4, 5, 6, 7]
    · have hv : vals 2 (f :: raw) = vals 2 raw := by
        have : f.tag ≠ 2 := by rintro h'; rw [h'] at h; simp at h
        simp [vals, seg, this]
      have hf : ((f :: raw).map entryOf).filter (fun f => f.1 ∈ [1, 3, 4, 5, 6, 7]) =
          entryOf f :: (raw.map entryOf).filter (fun f => f.1 ∈ [1, 3, 4, 5, 6, 7]) := by
        rw [List.map_cons, List.filter_cons_of_pos (by simpa [entryOf] using h)]
      rw [hv, hf]
      simp only [blob_step_stored m _ f h]
      constructor
      · rintro ⟨m1, ⟨d, h1, rfl⟩, h2, ds, h3, h4⟩
        refine ⟨h2, d :: ds, .cons h1 h3, ?_⟩
        rw [h4, List.getLast?_cons]
        cases ds.getLast? <;> rfl
      · rintro ⟨h2, ds, h3, h4⟩
        cases h3 with
        | @cons _ d _ ds h1 h3 =>
          refine ⟨_, ⟨d, h1, rfl⟩, h2, ds, h3, ?_⟩
          rw [h4, List.getLast?_cons]
          cases ds.getLast? <;> rfl
    · have hf : ((f :: raw).map entryOf).filter (fun f => f.1 ∈ [1, 3, 4, 5, 6, 7]) =
          (raw.map entryOf).filter (fun f => f.1 ∈ [1, 3, 4, 5, 6, 7]) := by
        rw [List.map_cons, List.filter_cons_of_neg (by simpa [entryOf] using h)]
      rw [hf]
      by_cases h2 : f.tag = 2
      · have hv : vals 2 (f :: raw) = f.val :: vals 2 raw := by simp [vals, seg, h2]
        rw [hv, List.foldlM_cons]
        obtain ⟨t, v⟩ := f
        simp only at h2
        subst h2
        simp only [Pb.Blob.step, Option.bind_eq_bind, Option.bind_eq_some_iff, Option.map_eq_some_iff]
        constructor
        · rintro ⟨m1, ⟨x, hx, rfl⟩, h3, h4⟩
          exact ⟨⟨_, ⟨x, hx, rfl⟩, h3⟩, h4⟩
        · rintro ⟨⟨_, ⟨x, hx, rfl⟩, h3⟩, h4⟩
          exact ⟨_, ⟨x, hx, rfl⟩, h3, h4⟩
      · have hv : vals 2 (f :: raw) = vals 2 raw := by simp [vals, seg, h2]
        rw [hv, blob_step_other m f h h2]
        simp

theorem Blob.fold_iff (raw : List Field) (m : Pb.Blob) : raw.foldlM Pb.Blob.step {} = some m ↔ Spec.Lenient.Blob (raw.map entryOf) m := by
  rw [blob_fold]
  simp only [rule_number 2 raw (ty := Spec.Lenient.int32) toInt32_lenient, Spec.Lenient.Blob, Option.or_none]

theorem Blob.decode_iff (b : Bytes) (m : Pb.Blob) : Pb.Blob.decode b = some m ↔ Spec.Lenient.Message 99 Spec.Lenient.Blob b m :=
  message_iff (depth := 99) Blob.fold_iff b m

end OsmIo
