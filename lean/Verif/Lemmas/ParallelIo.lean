import Verif.Model.ParallelIo
import Mathlib.Data.Prod.Lex
import Verif.Lemmas.ForEach
import Verif.Lemmas.ParallelSystem
/-! # Lemmas on the parallel copy program -/
set_option linter.unusedSimpArgs false
set_option linter.flexible false
namespace OsmIo
open Spec

namespace ParSystem

theorem step_stage {g : Config} {s t : ParSystem} (hs : Step g s t) : s.stage ≤ t.stage := by
  cases hs <;> simp_all

/-- A program may turn out to be longer than what has been done so far. -/
theorem steps_extend {g : Config} {ops : List Op} {s : ParSystem} (hs : Steps g (init ops) s) (h0 : s.stage = 0) (new : List Op) :
    Steps g (init (ops ++ new)) { s with ops := s.ops ++ new } := by
  induction hs with
  | refl => exact .refl
  | @tail a b _ hst ih =>
    have h1 : a.stage = 0 := by have := step_stage hst; omega
    refine (ih h1).tail ?_
    cases hst with
    | header ops hf h0 h hc => exact .header _ (ops ++ new) hf h0 (by simp [h]) hc
    | call c ops hf h0 h hc => exact .call _ c (ops ++ new) hf h0 (by simp [h]) hc
    | close => simp at h0
    | joinOrdering => simp at h0
    | joinEncoding => simp at h0
    | joinWriting => simp at h0
    | exec c rest o hf h hfl hr ho => exact .exec _ c rest o hf h hfl hr ho
    | execPanic c rest hf h hfl hr ho => exact .execPanic _ c rest hf h hfl hr ho
    | flushStart rest hf h hfl hr => exact .flushStart _ rest hf h hfl hr
    | flushRound hf hfl hr hb => exact .flushRound _ hf hfl hr hb
    | flushEnd hf hfl hr hb => exact .flushEnd _ hf hfl hr hb
    | submit b hf hb hl hc => exact .submit _ b hf hb hl hc
    | take l r b hf h ht => exact .take _ l r b hf h ht
    | encode l r k es hf h hl hc => exact .encode _ l r k es hf h hl hc
    | writeHeader rest hf h => exact .writeHeader _ rest hf h
    | write k b rest w hf h hw => exact .write _ k b rest w hf h hw
    | wait k b rest hf h hw hn => exact .wait _ k b rest hf h hw hn
    | writePanic k b rest hf h hw hn => exact .writePanic _ k b rest hf h hw hn

theorem step_ops {g : Config} {s t : ParSystem} (hs : Step g s t) : t.ops = s.ops ∨ ∃ x, s.ops = x :: t.ops := by
  cases hs <;> first | exact .inl rfl | exact .inr ⟨_, by assumption⟩

end ParSystem

namespace ForEach
variable {T : Nat} {σ : Type}

/-- A run without failures as a run of the plain pool. -/
def toPool (p : ForEach T σ) : Pool T Element σ :=
  ⟨(p.queue.map fun x => (x.1, x.2.getD [])) ++ ((p.left.map (·.getD [])).zipIdx p.sent).map (fun c => (c.2, c.1)), p.running, p.shared,
    p.log.map fun x => (x.1, x.2.1, x.2.2.1)⟩

theorem toPool_init (cmds : List (List Element)) (s : σ) :
    toPool (init (T := T) (cmds.map some) s) = Pool.init cmds s := by
  simp [toPool, init, Pool.init, Function.comp_def]

theorem step_toPool {act : Fin T → Element → σ → σ} {cap : Nat} {p q : ForEach T σ}
    (hq : ∀ x ∈ p.queue, x.2 ≠ none) (hs : Step (fun i e s => (act i e s, true)) cap p q) : Pool.Steps act (toPool p) (toPool q) := by
  cases hs with
  | submit c rest h hc =>
    have : toPool { p with sent := p.sent + 1, left := rest, queue := p.queue ++ [(p.sent, c)] } = toPool p := by
      simp [toPool, h, List.zipIdx_cons]
    rw [this]
  | take i l r k es hq' hi hd =>
    refine .single ?_
    have := Pool.Step.take (act := act) (toPool p) i (l.map fun x => (x.1, x.2.getD [])) ((r.map fun x => (x.1, x.2.getD [])) ++
      ((p.left.map (·.getD [])).zipIdx p.sent).map (fun c => (c.2, c.1))) (k, es) (by simp [toPool, hq']) hi
    simpa [toPool] using this
  | unreadable i l r k d hq' hi hd => exact absurd rfl (hq (k, none) (by rw [hq']; simp))
  | call i k e rest hi hf =>
    refine .single ?_
    have := Pool.Step.act (act := act) (toPool p) i k e rest hi
    simpa [toPool] using this
  | fail i k e rest d hi hf => simp at hf
  | finish i k hi => exact .single (Pool.Step.finish (toPool p) i k hi)
  | join hr hl hq hi => exact .refl

theorem queue_some {cmds : List (List Element)} {p : ForEach T σ} (h : Inv (cmds.map some) p) : ∀ x ∈ p.queue, x.2 ≠ none := by
  intro x hx hn
  obtain ⟨-, h2, -⟩ := h.queue x hx
  rw [hn] at h2
  simp at h2

theorem steps_toPool {act : Fin T → Element → σ → σ} {cap : Nat} {cmds : List (List Element)} {s : σ} {p : ForEach T σ}
    (hs : Steps (fun i e s => (act i e s, true)) cap (init (cmds.map some) s) p) : Pool.Steps act (Pool.init cmds s) (toPool p) := by
  induction hs with
  | refl => rw [← toPool_init]
  | tail h hst ih => exact ih.trans (step_toPool (queue_some (steps_inv (init_inv _ _) h)) hst)

theorem steps_alive {f : Fin T → Element → σ → σ × Bool} (hf : ∀ i e s, (f i e s).2 = true) {cap : Nat} {cmds : List (List Element)} {s : σ} {p : ForEach T σ}
    (hs : Steps f cap (init (cmds.map some) s) p) : ∀ i, p.dead i = false := by
  induction hs with
  | refl => intro i; rfl
  | tail h hst ih =>
    cases hst with
    | unreadable i l r k d hq' hi hd => exact absurd rfl (queue_some (steps_inv (init_inv _ _) h) (k, none) (by rw [hq']; simp))
    | fail i k e rest d hi hf' => simp [hf] at hf'
    | submit | take | call | finish | join => exact ih

theorem no_step_returned {f : Fin T → Element → σ → σ × Bool} {cap : Nat} {cmds : List (Option (List Element))} {p q : ForEach T σ}
    (h : Inv cmds p) (hr : p.returned = true) : ¬ Step f cap p q := by
  obtain ⟨h1, h2, h3⟩ := h.joined hr
  intro hs
  cases hs with
  | submit c rest h hc => simp [h1] at h
  | take i l r k es hq' hi hd => simp [h2] at hq'
  | unreadable i l r k d hq' hi hd => simp [h2] at hq'
  | call i k e rest hi hf => simp [h3] at hi
  | fail i k e rest d hi hf => simp [h3] at hi
  | finish i k hi => simp [h3] at hi
  | join hr' => simp [hr] at hr'

end ForEach

namespace ParallelIo
variable {T : Nat}

/-- What the writer is asked to do for the batches handed over. -/
def opsOf (batches : List (List Element)) : List Op := batches.map fun b => .write (.elements b)

theorem callsOf_opsOf (batches : List (List Element)) : callsOf (opsOf batches) = batches.map .elements := by
  induction batches with
  | nil => rfl
  | cons b bs ih => simp [opsOf, callsOf] at ih ⊢

structure Inv (g : ParSystem.Config) (readCap : Nat) (keep : Element → Bool) (cmds : List (Option (List Element))) (s : ParallelIo T) : Prop where
  reader : ForEach.Steps (closure keep) readCap (ForEach.init cmds ⟨fun _ => [], []⟩) s.reader
  writer : ParSystem.Steps g (ParSystem.init (.header :: opsOf s.reader.shared.batches)) s.writer
  ops : s.writer.ops = [] ∨ s.writer.ops = [.header] ∧ s.reader = ForEach.init cmds ⟨fun _ => [], []⟩
  stage : s.reader.returned = false → s.writer.stage = 0

theorem steps_inv {g : ParSystem.Config} {readCap : Nat} {keep : Element → Bool} {cmds : List (Option (List Element))} {s : ParallelIo T}
    (hs : Steps g readCap keep (init cmds) s) : Inv g readCap keep cmds s := by
  induction hs with
  | refl => exact ⟨.refl, .refl, .inr ⟨rfl, rfl⟩, fun _ => rfl⟩
  | @tail a b _ hst ih =>
    cases hst with
    | writer w h hc =>
      refine ⟨ih.reader, ih.writer.tail h, ?_, ?_⟩
      · rcases ParSystem.step_ops h with e | ⟨x, e⟩
        · rw [e]; exact ih.ops
        · left
          rcases ih.ops with h | ⟨h, -⟩
          · rw [h] at e; simp at e
          · rw [h] at e; simp at e; exact e.2
      · intro hr
        rcases hc with hc | hc
        · exact hc.trans (ih.stage hr)
        · simp only at hr; rw [hc] at hr; simp at hr
    | read r ho h hb =>
      refine ⟨ih.reader.tail h, by simp only [hb]; exact ih.writer, .inl ho, ?_⟩
      intro _
      apply ih.stage
      by_contra hr
      exact ForEach.no_step_returned (ForEach.steps_inv (ForEach.init_inv _ _) ih.reader) (by simpa using hr) h
    | handOver r bt ho h hb hf hq =>
      have h0 : a.writer.stage = 0 := by
        apply ih.stage
        by_contra hr
        exact ForEach.no_step_returned (ForEach.steps_inv (ForEach.init_inv _ _) ih.reader) (by simpa using hr) h
      refine ⟨ih.reader.tail h, ?_, .inl ho, fun _ => h0⟩
      have := ParSystem.steps_extend ih.writer h0 [.write (.elements bt)]
      simp only [hb, opsOf, List.map_append, List.map_cons, List.map_nil] at this ⊢
      refine this.tail ?_
      have h2 := ParSystem.Step.call (g := g) { a.writer with ops := a.writer.ops ++ [.write (.elements bt)] } (.elements bt) [] hf h0 (by simp [ho]) hq
      simpa [ho] using h2

theorem call_batches {keep : Element → Bool} (i : Fin T) (e : Element) (s : TlState T) :
    (tlAct keep i e s).batches = s.batches ∨ ∃ b, (tlAct keep i e s).batches = s.batches ++ [b] := by
  unfold tlAct
  split
  · exact .inr ⟨_, rfl⟩
  · left
    split <;> rfl

theorem step_batches {keep : Element → Bool} {readCap : Nat} {r r' : ForEach T (TlState T)} (h : ForEach.Step (closure keep) readCap r r') :
    r'.shared.batches = r.shared.batches ∨ ∃ b, r'.shared.batches = r.shared.batches ++ [b] := by
  cases h with
  | call i k e rest hi hf => exact call_batches i e r.shared
  | fail i k e rest d hi hf => exact call_batches i e r.shared
  | submit | take | unreadable | finish | join => exact .inl rfl

/-- While the queue of the ordering pool is full, `close` cannot be called: steps of the writer leave the stage as it is. -/
theorem step_full {g : ParSystem.Config} {w w' : ParSystem} (h : ParSystem.Step g w w') (h0 : w.stage = 0) (hfull : ¬ w.orderQueue.length < g.cap) :
    w'.stage = w.stage := by
  cases h <;> first | rfl | contradiction | simp_all

theorem step_before {g : ParSystem.Config} {w w' : ParSystem} (h : ParSystem.Step g w w') (h0 : w.stage = 0) (ho : w.ops ≠ []) :
    w'.stage = w.stage := by
  cases h <;> first | rfl | contradiction | simp_all

theorem progress {g : ParSystem.Config} {readCap : Nat} {keep : Element → Bool} {cmds : List (List Element)} (hT : 0 < T) (hr : 0 < readCap)
    (hF : 0 < g.blockSize) (hq : 0 < g.cap) (ht : 0 < g.threads) {s : ParallelIo T} (h : Inv g readCap keep (cmds.map some) s)
    (hf : s.writer.failed = false) (hst : s.writer.stage ≠ 4) : ∃ t, Step g readCap keep s t := by
  obtain ⟨hp, hi⟩ := ParSystem.steps_phase h.writer
  obtain ⟨w, hw⟩ := ParSystem.progress hF hq ht hp hi hf hst
  cases hret : s.reader.returned with
  | true => exact ⟨_, .writer s w hw (.inr hret)⟩
  | false =>
    have h0 := h.stage hret
    rcases h.ops with ho | ⟨ho, -⟩
    · obtain ⟨r, hr, -⟩ := ForEach.progress (f := closure keep) hT hr (ForEach.steps_alive (fun _ _ _ => rfl) h.reader) hret
      rcases step_batches hr with hb | ⟨b, hb⟩
      · exact ⟨_, .read s r ho hr hb⟩
      · by_cases hroom : s.writer.orderQueue.length < g.cap
        · exact ⟨_, .handOver s r b ho hr hb hf hroom⟩
        · exact ⟨_, .writer s w hw (.inl (step_full hw h0 hroom))⟩
    · exact ⟨_, .writer s w hw (.inl (step_before hw h0 (by simp [ho])))⟩

/-- The work left: of the reader first, then of the writer. -/
def measure (s : ParallelIo T) : Nat ×ₗ Nat := toLex (ForEach.work s.reader, ParSystem.work s.writer)

theorem step_measure {g : ParSystem.Config} {readCap : Nat} {keep : Element → Bool} {cmds : List (Option (List Element))} (hF : 0 < g.blockSize)
    {s t : ParallelIo T} (h : Inv g readCap keep cmds s) (hs : Step g readCap keep s t) : measure t < measure s := by
  cases hs with
  | writer w hw hc =>
    have := ParSystem.step_work hF (ParSystem.steps_phase h.writer).2 hw
    exact Prod.Lex.toLex_lt_toLex.mpr (.inr ⟨rfl, this⟩)
  | read r ho hr hb => exact Prod.Lex.toLex_lt_toLex.mpr (.inl (ForEach.step_work hr))
  | handOver r b ho hr hb hf hq => exact Prod.Lex.toLex_lt_toLex.mpr (.inl (ForEach.step_work hr))

end ParallelIo
end OsmIo
