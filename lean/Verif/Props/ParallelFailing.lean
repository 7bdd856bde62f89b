import Verif.Model.ParallelFailing
import Verif.Props.ParallelSystem
/-!
# C82: I/O errors in the parallel writer
-/
namespace OsmIo
open Spec ParSystem

/-- The states that can occur when writes may fail. -/
def Spec.OccursF (g : ParSystem.Config) (ops : List Op) (s : ParSystem) : Prop := ParSystem.StepsF g (ParSystem.init ops) s

theorem step_failed {g : Config} {s t : ParSystem} (h : Step g s t) : s.failed = false := by
  cases h <;> assumption

theorem stepF_failed {g : Config} {s t : ParSystem} (h : StepF g s t) : s.failed = false := by
  cases h with
  | ok _ h => exact step_failed h
  | _ => assumption

/-- An error ends the run: before it everything is as without errors. -/
theorem occursF_cases {g : Config} {ops : List Op} {s : ParSystem} (h : OccursF g ops s) :
    Occurs g ops s ∨ ∃ s', Occurs g ops s' ∧ StepF g s' s ∧ s.failed = true ∧ s.stage = s'.stage ∧
      (s.file = s'.file ∨ ∃ t x y, Step g s' t ∧ s.file = some x ∧ t.file = some y ∧ x <+: y) := by
  induction h with
  | refl => exact .inl .refl
  | tail hs hstep ih =>
    rcases ih with ih | ⟨_, _, _, hf, _⟩
    · have hstep' := hstep
      cases hstep with
      | ok _ h => exact .inl (ih.tail h)
      | create rest hf h hw => exact .inr ⟨_, ih, hstep', rfl, rfl, .inl rfl⟩
      | header rest p hf h hw hp hp' =>
        refine .inr ⟨_, ih, hstep', rfl, rfl, .inr ⟨_, p, _, .writeHeader _ rest hf h, rfl, ?_, hp⟩⟩
        simp [ParSystem.file, hw]
      | blob k b rest w p hf h hw hp hp' =>
        exact .inr ⟨_, ih, hstep', rfl, rfl, .inr ⟨_, _, _, .write _ k b rest w hf h hw, rfl, rfl, hp⟩⟩
    · rw [stepF_failed hstep] at hf
      cases hf

/-- Once `close` has returned nothing is left to do, so nothing can fail. -/
structure Emptied (s : ParSystem) : Prop where
  order : 2 ≤ s.stage → s.orderQueue = []
  write : s.stage = 4 → s.writeQueue = []
  fails : s.failed = true → s.stage ≠ 4

theorem emptied_step {g : Config} {s t : ParSystem} (h : Step g s t) (e : Emptied s) : Emptied t := by
  obtain ⟨e1, e2, e3⟩ := e
  cases h with
  | header ops hf h0 h hc => exact ⟨by simp [h0], by simp [h0], by simp [hf]⟩
  | call c ops hf h0 h hc => exact ⟨by simp [h0], by simp [h0], by simp [hf]⟩
  | close hf h0 h hc => exact ⟨by simp, by simp, by simp⟩
  | joinOrdering hf h1 hq hfl hr => exact ⟨fun _ => hq, by simp, by simp⟩
  | joinEncoding hf h2 hq he => exact ⟨fun _ => e1 (by omega), by simp, by simp⟩
  | joinWriting hf h3 hq => exact ⟨fun _ => e1 (by omega), fun _ => hq, by simp [hf]⟩
  | exec c rest o hf h hfl hr ho =>
    have : ¬ 2 ≤ s.stage := fun h2 => by rw [e1 h2] at h; cases h
    exact ⟨fun h2 => absurd h2 this, fun h2 => absurd (by simp at h2; omega) this, e3⟩
  | execPanic c rest hf h hfl hr ho =>
    have : ¬ 2 ≤ s.stage := fun h2 => by rw [e1 h2] at h; cases h
    exact ⟨e1, e2, fun _ h4 => this (by simp at h4; omega)⟩
  | flushStart rest hf h hfl hr =>
    have : ¬ 2 ≤ s.stage := fun h2 => by rw [e1 h2] at h; cases h
    exact ⟨fun h2 => absurd h2 this, fun h2 => absurd (by simp at h2; omega) this, e3⟩
  | flushRound hf hfl hr hb => exact ⟨e1, e2, e3⟩
  | flushEnd hf hfl hr hb => exact ⟨e1, e2, e3⟩
  | submit b hf hb hl hc => exact ⟨e1, e2, e3⟩
  | take l r b hf h ht => exact ⟨e1, e2, e3⟩
  | encode l r k es hf h hl hc => exact ⟨e1, fun h4 => absurd hl (by simp at h4; omega), e3⟩
  | writeHeader rest hf h => exact ⟨e1, (fun h4 => by rw [e2 h4] at h; cases h), e3⟩
  | write k b rest w hf h hw => exact ⟨e1, (fun h4 => by rw [e2 h4] at h; cases h), e3⟩
  | wait k b rest hf h hw hn => exact ⟨e1, (fun h4 => by rw [e2 h4] at h; cases h), e3⟩
  | writePanic k b rest hf h hw hn => exact ⟨e1, e2, fun _ h4 => by rw [e2 h4] at h; cases h⟩

theorem emptied_stepF {g : Config} {s t : ParSystem} (h : StepF g s t) (e : Emptied s) : Emptied t := by
  cases h with
  | ok _ h => exact emptied_step h e
  | create rest hf h hw => exact ⟨e.order, e.write, fun _ h4 => by rw [e.write h4] at h; cases h⟩
  | header rest p hf h hw hp hp' => exact ⟨e.order, e.write, fun _ h4 => by rw [e.write h4] at h; cases h⟩
  | blob k b rest w p hf h hw hp hp' => exact ⟨e.order, e.write, fun _ h4 => by rw [e.write h4] at h; cases h⟩

theorem occursF_emptied {g : Config} {ops : List Op} {s : ParSystem} (h : OccursF g ops s) : Emptied s := by
  induction h with
  | refl => exact ⟨fun h => by simp [init] at h, fun h => by simp [init] at h, fun h => by simp [init] at h⟩
  | tail _ hstep ih => exact emptied_stepF hstep ih

/-- C82: whatever fails, if `close` returns there was no error, and the file consists of the header and all blocks, in order. -/
theorem C82_success (g : ParSystem.Config) (hF : 0 < g.blockSize) (ops : List Op) (s : ParSystem) (hs : OccursF g (.header :: ops) s) (hc : Closed s) :
    ¬ Panicked s ∧ ∃ blocks, ParallelBlocks g.S g.bufferSize g.blockSize (callsOf ops) blocks ∧
      s.file = some (blockBytes g.z g.c (.header g.info :: blocks.map .data)) := by
  have hp : ¬ Panicked s := fun hp => (occursF_emptied hs).fails hp hc
  refine ⟨hp, ?_⟩
  rcases occursF_cases hs with h | ⟨s', h1, h2, h3, -⟩
  · exact C68_close_complete g hF ops s h hc
  · exact absurd h3 hp

/-- C82: whatever fails, and at any moment, the file does not exist yet or holds a beginning of the file that would have been written without errors. -/
theorem C82_beginning (g : ParSystem.Config) (hF : 0 < g.blockSize) (ops : List Op) (blocks : List (List Element))
    (hb : ParallelBlocks g.S g.bufferSize g.blockSize (callsOf ops) blocks) (s : ParSystem) (hs : OccursF g (.header :: ops) s) :
    s.file = none ∨ ∃ x, s.file = some x ∧ x <+: blockBytes g.z g.c (.header g.info :: blocks.map .data) := by
  have key (t : ParSystem) (ht : Occurs g (.header :: ops) t) :
      t.file = none ∨ ∃ x, t.file = some x ∧ x <+: blockBytes g.z g.c (.header g.info :: blocks.map .data) := by
    rcases C68_file_grows g hF ops blocks hb t ht with h | ⟨k, hk, h⟩
    · exact .inl h
    · refine .inr ⟨_, h, ?_⟩
      have e : FileBlock.header g.info :: blocks.map FileBlock.data =
          (.header g.info :: (blocks.take k).map .data) ++ (blocks.drop k).map .data := by
        rw [List.cons_append, ← List.map_append, List.take_append_drop]
      rw [e, blockBytes_append]
      exact ⟨_, rfl⟩
  rcases occursF_cases hs with h | ⟨s', h1, h2, h3, h4, h5 | ⟨t, x, y, ht, hx, hy, hxy⟩⟩
  · exact key s h
  · rw [h5]; exact key s' h1
  · rcases key t (h1.tail ht) with h | ⟨z, hz, hz'⟩
    · rw [h] at hy; cases hy
    · rw [hz] at hy
      cases hy
      exact .inr ⟨x, hx, hxy.trans hz'⟩

/-- C82: after an error in writing nothing more happens: no thread goes on, and `close` does not return. -/
theorem C82_error (g : ParSystem.Config) (ops : List Op) (s t : ParSystem) (hs : OccursF g ops s) (hp : Panicked s) : ¬ StepF g s t ∧ ¬ Closed s :=
  ⟨(fun h => by have := stepF_failed h; rw [hp] at this; cases this), (occursF_emptied hs).fails hp⟩

/-- C82: no deadlock comes of it: when no thread can go on, `close` has returned or a thread has panicked; and no schedule goes on for ever. -/
theorem C82_no_deadlock (g : ParSystem.Config) (hF : 0 < g.blockSize) (hq : 0 < g.cap) (ht : 0 < g.threads) (ops : List Op)
    (hr : ∃ o, Orderer.run g.S g.bufferSize g.blockSize {} (callsOf ops) = .ok o) (s : ParSystem) (hs : OccursF g (.header :: ops) s)
    (hn : ¬ ∃ t, StepF g s t) : Closed s ∨ Panicked s := by
  rcases occursF_cases hs with h | ⟨_, _, _, h3, _⟩
  · by_cases hc : Closed s
    · exact .inl hc
    · exact absurd (fun ⟨t, ht⟩ => hn ⟨t, .ok _ _ ht⟩) ((C68_no_deadlock g hF hq ht ops hr s h).2.1 hc)
  · exact .inr h3

theorem C82_schedules_end (g : ParSystem.Config) (hF : 0 < g.blockSize) (ops : List Op) :
    ¬ ∃ f : Nat → ParSystem, f 0 = ParSystem.init ops ∧ ∀ n, ParSystem.StepF g (f n) (f (n + 1)) := by
  rintro ⟨f, h0, h⟩
  refine C68_schedules_end g hF ops ⟨f, h0, fun n => ?_⟩
  have hf := stepF_failed (h (n + 1))
  have hn := h n
  generalize f n = s at hn
  generalize f (n + 1) = t at hn hf
  cases hn with
  | ok _ h => exact h
  | create => cases hf
  | header => cases hf
  | blob => cases hf

/-- C82: what can be read from the file that is left is a beginning of the elements of the complete file. -/
theorem C82_readable (g : ParSystem.Config) (hF : 0 < g.blockSize) (ops : List Op) (blocks : List (List Element))
    (hb : ParallelBlocks g.S g.bufferSize g.blockSize (callsOf ops) blocks) (s : ParSystem) (hs : OccursF g (.header :: ops) s) (x : Bytes)
    (hx : s.file = some x) (es : List Element) (r : End) (hr : ReadsElements g.z (blockBytes g.z g.c (.header g.info :: blocks.map .data)) es r) :
    ∃ es' r', ReadsElements g.z x es' r' ∧ es' <+: es ∧ (r' = .done ∨ r' = .panic) := by
  rcases C82_beginning g hF ops blocks hb s hs with h | ⟨y, h, hy⟩
  · rw [hx] at h; cases h
  · rw [hx] at h
    cases h
    have := C10_truncated_prefix g.z _ x.length es r hr
    rwa [← List.prefix_iff_eq_take.1 hy] at this

/-! ### Cases -/

/-- A run in which the writing of the header fails after its first byte: the program is stuck with a panic, and one byte is in the file. -/
example (z : Zlib) (info : FileInfo) (c : CompressionType) :
    ∃ s b, OccursF (exSystem z info c) (.header :: exOps) s ∧ Panicked s ∧ s.file = some [b] := by
  have hp : ∃ b rest, ((Writer.fromFileInfo info c).writeHeader z).file = b :: rest ∧ rest ≠ [] := by
    have h : ((Writer.fromFileInfo info c).writeHeader z).file = blobBytes ((FileBlock.header info).serialize z c).1 ((FileBlock.header info).serialize z c).2 := rfl
    rw [h]
    unfold blobBytes beBytes
    exact ⟨_, _, rfl, by simp⟩
  obtain ⟨b, rest, hb, hr⟩ := hp
  refine ⟨_, b, (Relation.ReflTransGen.refl.tail (.ok _ _ (.header _ exOps rfl rfl rfl Nat.one_pos))).tail
    (.header _ [] [b] rfl rfl rfl (by rw [show ((Writer.fromFileInfo (exSystem z info c).info (exSystem z info c).c).writeHeader (exSystem z info c).z).file = b :: rest from hb]; exact ⟨rest, rfl⟩)
      (by rw [show ((Writer.fromFileInfo (exSystem z info c).info (exSystem z info c).c).writeHeader (exSystem z info c).z).file = b :: rest from hb]; intro h; cases h; exact hr rfl)), rfl, rfl⟩

end OsmIo
