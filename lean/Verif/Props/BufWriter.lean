import Verif.Spec.BufWriter
import Verif.Model.ApidbDirectory
import Verif.Props.FailingDisk
import Verif.Props.ApidbLoad
/-!
# I/O errors in writing a dump (C79)
-/
namespace OsmIo
open Apidb Spec Text

theorem flushBuf_cases (f : BufFile) :
    (f.flushBuf.1 = true ∧ f.flushBuf.2.buf = [] ∧ f.flushBuf.2.disk.file = f.disk.file ++ f.buf) ∨
    (f.flushBuf.1 = false ∧ f.flushBuf.2.disk.file ++ f.flushBuf.2.buf = f.disk.file ++ f.buf ∧ f.flushBuf.2.buf.length ≤ f.buf.length) := by
  unfold BufFile.flushBuf
  by_cases h : f.buf = []
  · simp [h]
  · rw [if_neg h]
    cases e : f.disk.faults f.disk.count with
    | none => simp
    | some k => simp

theorem writeAll_cases (f : BufFile) (b : Bytes) (hb : f.buf.length ≤ bufCapacity) :
    ((f.writeAll b).1 = true ∧ (f.writeAll b).2.disk.file ++ (f.writeAll b).2.buf = f.disk.file ++ f.buf ++ b ∧ (f.writeAll b).2.buf.length ≤ bufCapacity) ∨
    ((f.writeAll b).1 = false ∧ ((f.writeAll b).2.disk.file ++ (f.writeAll b).2.buf) <+: f.disk.file ++ f.buf ++ b ∧ (f.writeAll b).2.buf.length ≤ bufCapacity) := by
  unfold BufFile.writeAll
  by_cases h1 : f.buf.length + b.length < bufCapacity
  · left
    rw [if_pos h1]
    exact ⟨rfl, by simp, by simp; omega⟩
  · rw [if_neg h1]
    have direct : ∀ g : BufFile, g.buf = [] → g.disk.file = f.disk.file ++ f.buf → bufCapacity ≤ b.length →
        ((g.disk.writeAll b).1 = true ∧ (g.disk.writeAll b).2.file ++ g.buf = f.disk.file ++ f.buf ++ b) ∨
        ((g.disk.writeAll b).1 = false ∧ ((g.disk.writeAll b).2.file ++ g.buf) <+: f.disk.file ++ f.buf ++ b) := by
      intro g e1 e2 _
      unfold Disk.writeAll
      cases g.disk.faults g.disk.count with
      | none => left; simp [e1, e2]
      | some k =>
        right
        simp only [e1, e2, List.append_nil, true_and]
        exact (List.prefix_append_right_inj _).2 (List.take_prefix _ _)
    by_cases h2 : bufCapacity < f.buf.length + b.length
    · simp only [if_pos h2]
      rcases flushBuf_cases f with ⟨e1, e2, e3⟩ | ⟨e1, e2, e3⟩
      · simp only [e1, if_true]
        by_cases h3 : bufCapacity ≤ b.length
        · rw [if_pos h3]
          rcases direct _ e2 e3 h3 with ⟨d1, d2⟩ | ⟨d1, d2⟩
          · exact .inl ⟨d1, d2, by simp [e2]⟩
          · exact .inr ⟨d1, d2, by simp [e2]⟩
        · rw [if_neg h3]
          exact .inl ⟨rfl, by simp [e2, e3], by simp [e2]; omega⟩
      · simp only [e1, Bool.false_eq_true, if_false]
        right
        exact ⟨trivial, by rw [e2]; exact ⟨_, rfl⟩, by omega⟩
    · simp only [if_neg h2, if_true]
      by_cases h3 : bufCapacity ≤ b.length
      · rw [if_pos h3]
        have hn : f.buf = [] := List.length_eq_zero_iff.1 (by omega)
        rcases direct f hn (by simp [hn]) h3 with ⟨d1, d2⟩ | ⟨d1, d2⟩
        · exact .inl ⟨d1, d2, by simp [hn]⟩
        · exact .inr ⟨d1, d2, by simp [hn]⟩
      · rw [if_neg h3]
        exact .inl ⟨rfl, by simp, by simp; omega⟩

/-- What holds of the files while nothing has failed. -/
structure Inv79 (fs : Table → BufFile) (w : Table → Bytes) : Prop where
  content : ∀ t, (fs t).disk.file ++ (fs t).buf = w t
  small : ∀ t, (fs t).buf.length ≤ bufCapacity

theorem tableOp_ok {fs : Table → BufFile} {w : Table → Bytes} (h : Inv79 fs w) (op : TableOp) :
    ((tableOp fs op).1 = true ∧ Inv79 (tableOp fs op).2 (fun t => w t ++ writtenTo t [op])) ∨
    ((tableOp fs op).1 = false ∧ ∀ t, ((tableOp fs op).2 t).disk.file ++ ((tableOp fs op).2 t).buf <+: w t ++ writtenTo t [op]) := by
  cases op with
  | write t b =>
    simp only [tableOp, writtenTo, List.append_nil]
    rcases writeAll_cases (fs t) b (h.small t) with ⟨e1, e2, e3⟩ | ⟨e1, e2, e3⟩
    · left
      refine ⟨e1, ?_, ?_⟩
      · intro t'
        by_cases ht : t' = t
        · subst ht; simp only [if_true]; rw [e2, h.content]
        · simp only [if_neg ht, if_neg (Ne.symm ht), List.append_nil]; exact h.content t'
      · intro t'
        by_cases ht : t' = t
        · subst ht; simp only [if_true]; exact e3
        · simp only [if_neg ht]; exact h.small t'
    · right
      refine ⟨e1, ?_⟩
      intro t'
      by_cases ht : t' = t
      · subst ht; simp only [if_true]; rw [h.content] at e2; exact e2
      · simp only [if_neg ht, if_neg (Ne.symm ht), List.append_nil]; rw [h.content]
  | flush t =>
    simp only [tableOp, writtenTo, List.append_nil]
    rcases flushBuf_cases (fs t) with ⟨e1, e2, e3⟩ | ⟨e1, e2, e3⟩
    · left
      refine ⟨e1, ?_, ?_⟩
      · intro t'
        by_cases ht : t' = t
        · subst ht; simp only [if_true]; rw [e2, e3, List.append_nil, h.content]
        · simp only [if_neg ht]; exact h.content t'
      · intro t'
        by_cases ht : t' = t
        · subst ht; simp only [if_true]; rw [e2]; simp
        · simp only [if_neg ht]; exact h.small t'
    · right
      refine ⟨e1, ?_⟩
      intro t'
      by_cases ht : t' = t
      · subst ht; simp only [if_true]; rw [e2, h.content]
      · simp only [if_neg ht]; rw [h.content]

theorem writtenTo_append (t : Table) (a b : List TableOp) : writtenTo t (a ++ b) = writtenTo t a ++ writtenTo t b := by
  induction a with
  | nil => rfl
  | cons op a ih => cases op <;> simp [writtenTo, ih]

theorem tableOps_inv (ops : List TableOp) : ∀ {fs : Table → BufFile} {w : Table → Bytes}, Inv79 fs w →
    ((tableOps fs ops).1 = true ∧ Inv79 (tableOps fs ops).2 (fun t => w t ++ writtenTo t ops)) ∨
    ((tableOps fs ops).1 = false ∧ ∀ t, ((tableOps fs ops).2 t).disk.file ++ ((tableOps fs ops).2 t).buf <+: w t ++ writtenTo t ops) := by
  induction ops with
  | nil => intro fs w h; left; simpa [tableOps, writtenTo] using h
  | cons op ops ih =>
    intro fs w h
    have e : ∀ t, w t ++ writtenTo t (op :: ops) = (w t ++ writtenTo t [op]) ++ writtenTo t ops := by
      intro t
      rw [List.append_assoc, ← writtenTo_append]
      rfl
    simp only [tableOps]
    rcases tableOp_ok h op with ⟨e1, e2⟩ | ⟨e1, e2⟩
    · rw [e1, if_pos rfl]
      simp only [e]
      exact ih e2
    · rw [e1]
      simp only [Bool.false_eq_true, if_false, true_and, false_and, false_or]
      intro t
      rw [e]
      exact (e2 t).trans (List.prefix_append _ _)

theorem inv_fresh (faults : Table → Nat → Option Nat) : Inv79 (freshFiles faults) (fun _ => []) := ⟨by simp [freshFiles], by simp [freshFiles]⟩

/-- C79: while no operation has failed, the file of each table holds what was written to it but for at most the last 8192 bytes. -/
theorem C79_lag (faults : Table → Nat → Option Nat) (ops : List TableOp) (fs : Table → BufFile) (h : tableOps (freshFiles faults) ops = (true, fs))
    (t : Table) : (fs t).disk.file <+: writtenTo t ops ∧ (writtenTo t ops).length ≤ (fs t).disk.file.length + 8192 := by
  rcases tableOps_inv ops (inv_fresh faults) with ⟨e1, e2⟩ | ⟨e1, _⟩
  · rw [h] at e2
    have := e2.content t
    simp only [List.nil_append] at this
    refine ⟨⟨_, this⟩, ?_⟩
    rw [← this, List.length_append]
    have := e2.small t
    simp only [bufCapacity] at this
    omega
  · rw [h] at e1
    cases e1

/-- The bytes of a table do not change any more when nothing is written to it. -/
theorem ops_keep (t : Table) (ops : List TableOp) (hn : ∀ b, TableOp.write t b ∉ ops) : ∀ {fs fs' : Table → BufFile},
    tableOps fs ops = (true, fs') → (fs t).buf = [] → (fs' t).disk.file = (fs t).disk.file := by
  induction ops with
  | nil => intro fs fs' h _; simp only [tableOps, Prod.mk.injEq, true_and] at h; rw [h]
  | cons op ops ih =>
    intro fs fs' h hb
    simp only [tableOps] at h
    have hop : ((tableOp fs op).2 t) = fs t := by
      cases op with
      | write t' b =>
        simp only [tableOp]
        have : t ≠ t' := fun e => hn b (by rw [e]; simp)
        rw [if_neg this]
      | flush t' =>
        simp only [tableOp]
        by_cases ht : t = t'
        · subst ht; simp [BufFile.flushBuf, hb]
        · rw [if_neg ht]
    cases e : (tableOp fs op).1 with
    | false => rw [e] at h; simp at h
    | true =>
      rw [e] at h
      simp only [if_true] at h
      rw [ih (fun b hm => hn b (by simp [hm])) h (by rw [hop]; exact hb), hop]

theorem tableOps_append {a b : List TableOp} : ∀ {fs fs' : Table → BufFile}, tableOps fs (a ++ b) = (true, fs') →
    ∃ fs1, tableOps fs a = (true, fs1) ∧ tableOps fs1 b = (true, fs') := by
  induction a with
  | nil => intro fs fs' h; exact ⟨fs, rfl, h⟩
  | cons op a ih =>
    intro fs fs' h
    simp only [List.cons_append, tableOps] at h ⊢
    cases e : (tableOp fs op).1 with
    | false => rw [e] at h; simp at h
    | true =>
      rw [e] at h
      simp only [if_true] at h ⊢
      exact ih h

/-- C79: if nothing failed, a table flushed after the last write to it is complete in its file. -/
theorem C79_complete (faults : Table → Nat → Option Nat) (ops : List TableOp) (fs : Table → BufFile) (h : tableOps (freshFiles faults) ops = (true, fs))
    (t : Table) (ht : FlushedLast t ops) : (fs t).disk.file = writtenTo t ops := by
  obtain ⟨before, after, rfl, hn⟩ := ht
  obtain ⟨fs1, h1, h2⟩ := tableOps_append h
  simp only [tableOps] at h2
  cases e : (tableOp fs1 (.flush t)).1 with
  | false => rw [e] at h2; simp at h2
  | true =>
    rw [e] at h2
    simp only [if_true] at h2
    have hi : Inv79 fs1 (fun t => writtenTo t before) := by
      rcases tableOps_inv before (inv_fresh faults) with ⟨_, e2⟩ | ⟨e1, _⟩
      · rw [h1] at e2; simpa using e2
      · rw [h1] at e1; cases e1
    have hfl : ((tableOp fs1 (.flush t)).2 t).buf = [] ∧ ((tableOp fs1 (.flush t)).2 t).disk.file = writtenTo t before := by
      simp only [tableOp, if_true] at e ⊢
      rcases flushBuf_cases (fs1 t) with ⟨_, e2, e3⟩ | ⟨e1, _⟩
      · exact ⟨e2, by rw [e3, hi.content]⟩
      · rw [e] at e1; cases e1
    rw [ops_keep t after hn h2 hfl.1, hfl.2, writtenTo_append]
    have : ∀ ops : List TableOp, (∀ b, TableOp.write t b ∉ ops) → writtenTo t ops = [] := by
      intro ops
      induction ops with
      | nil => intro _; rfl
      | cons op ops ih =>
        intro hn
        have := ih (fun b hm => hn b (by simp [hm]))
        cases op with
        | write t' b =>
          have ht : t' ≠ t := fun e => hn b (by rw [e]; simp)
          simp [writtenTo, ht, this]
        | flush t' => simpa [writtenTo] using this
    simp [writtenTo, this after hn]

/-- C79: after the first error, also when the writer is dropped, each file holds a beginning of what was written to its table. -/
theorem C79_first_error (faults : Table → Nat → Option Nat) (ops : List TableOp) (t : Table) :
    ((tableOps (freshFiles faults) ops).2 t).disk.file <+: writtenTo t ops ∧ ((tableOps (freshFiles faults) ops).2 t).drop <+: writtenTo t ops := by
  have key : ((tableOps (freshFiles faults) ops).2 t).disk.file ++ ((tableOps (freshFiles faults) ops).2 t).buf <+: writtenTo t ops := by
    rcases tableOps_inv ops (inv_fresh faults) with ⟨_, e2⟩ | ⟨_, e2⟩
    · have := e2.content t
      simp only [List.nil_append] at this
      rw [this]
    · simpa using e2 t
  refine ⟨(List.prefix_append _ _).trans key, ?_⟩
  unfold BufFile.drop
  rcases flushBuf_cases ((tableOps (freshFiles faults) ops).2 t) with ⟨_, _, e3⟩ | ⟨_, e2, _⟩
  · rw [e3]; exact key
  · rw [← e2] at key
    exact (List.prefix_append _ _).trans key

theorem foldl_flush (fs : Table → BufFile) (files : Table → Text) (ts : List Table)
    (h : ∀ t ∈ ts, (fs t).disk.file = Wire.strBytes (String.ofList (files t))) : ∀ d : Directory,
    ts.foldl (fun d t => d.write (dataFile t) ((fs t).disk.file)) d =
      ts.foldl (fun d t => d.write (dataFile t) (Wire.strBytes (String.ofList (files t)))) d := by
  induction ts with
  | nil => intro d; rfl
  | cons t ts ih =>
    intro d
    simp only [List.foldl_cons]
    rw [h t (by simp), ih (fun t ht => h t (by simp [ht]))]

theorem mem_closeOrder (t : Table) : t ∈ closeOrder := by cases t <;> decide

theorem flushed_flatMap (t : Table) (m : Bytes) : ∀ ts : List Table, ts.Nodup → t ∈ ts →
    FlushedLast t (ts.flatMap fun t => [.write t m, .flush t]) := by
  intro ts
  induction ts with
  | nil => intro _ h; simp at h
  | cons u ts ih =>
    intro hn h
    rw [List.nodup_cons] at hn
    by_cases hu : t = u
    · subst hu
      refine ⟨[.write t m], ts.flatMap fun t => [.write t m, .flush t], by simp, fun b hb => ?_⟩
      simp only [List.mem_flatMap, List.mem_cons, List.not_mem_nil, or_false, reduceCtorEq] at hb
      obtain ⟨t', h1, h2⟩ := hb
      injection h2 with h2
      exact hn.1 (h2 ▸ h1)
    · obtain ⟨a, b, e, hb⟩ := ih hn.2 (by simpa [hu] using h)
      exact ⟨.write u m :: .flush u :: a, b, by simp [e], hb⟩

theorem flushed_close (t : Table) (rows : List TableOp) : FlushedLast t (rows ++ closeOps) := by
  obtain ⟨a, b, e, hb⟩ := flushed_flatMap t (Wire.strBytes "\\.\n") closeOrder (by decide +kernel) (mem_closeOrder t)
  exact ⟨rows ++ a, b, by rw [closeOps, e, List.append_assoc], hb⟩

/-- C79: if no call on the writer of a dump failed, `close` being the last, the directory is the one of C64 and C65: nothing is missing in
any table. `rows` are the operations before `close` reaches the tables: any cutting of the rows into calls of `write_all`, in any order
among the tables. -/
theorem C79_dump (z : Codec) (uc cc : Int64 → Int64) (es : List Element) (files : Table → Text) (_h : Dump z uc cc es files) (dir : Directory)
    (faults : Table → Nat → Option Nat) (rows : List TableOp)
    (hw : ∀ t, writtenTo t rows ++ Wire.strBytes "\\.\n" = Wire.strBytes (String.ofList (files t)))
    (fs : Table → BufFile) (hok : tableOps (freshFiles faults) (rows ++ closeOps) = (true, fs)) :
    closeOrder.foldl (fun d t => d.write (dataFile t) ((fs t).disk.file)) dir.create = dir.create.flush files := by
  have hc : ∀ t, writtenTo t closeOps = Wire.strBytes "\\.\n" := by
    intro t
    cases t <;> decide +kernel
  exact foldl_flush fs files closeOrder (fun t _ => by
    rw [C79_complete faults _ fs hok t (flushed_close t rows), writtenTo_append, hc, hw]) _

/-- C79, without `close` success means nothing: all writes return success although the device takes none of the bytes, and the error when
the writer is dropped is lost. -/
theorem C79_drop_silent (t : Table) (b : Bytes) (hb : b.length < 8192) :
    ∃ fs, tableOps (freshFiles fun _ _ => some 0) [.write t b] = (true, fs) ∧ (fs t).drop = [] := by
  have h : b.length < bufCapacity := hb
  refine ⟨fun t' => if t' = t then ⟨{ faults := fun _ => some 0 }, b⟩ else freshFiles (fun _ _ => some 0) t', ?_, ?_⟩
  · simp [tableOps, tableOp, freshFiles, BufFile.writeAll, h]
  · by_cases hb' : b = []
    · simp [BufFile.drop, BufFile.flushBuf, hb']
    · simp [BufFile.drop, BufFile.flushBuf, hb']

/-- A row and an end marker, then the flush: complete. -/
example : ∃ fs, tableOps (freshFiles fun _ _ => none) [.write .users [65, 10], .write .users [92, 46, 10], .flush .users] = (true, fs) ∧
    (fs .users).disk.file = [65, 10, 92, 46, 10] := by
  refine ⟨_, rfl, ?_⟩
  decide +kernel

/-- The device is full when the buffer is flushed: the flush reports it. -/
example : (tableOps (freshFiles fun _ _ => some 3) [.write .users [65, 10], .write .users [92, 46, 10], .flush .users]).1 = false ∧
    ((tableOps (freshFiles fun _ _ => some 3) [.write .users [65, 10], .write .users [92, 46, 10], .flush .users]).2 .users).disk.file = [65, 10, 92] := by
  decide +kernel

end OsmIo
