import Verif.Lemmas.ForEach
import Verif.Props.Parallel
import Verif.Props.Header
/-! # C69: `parallel_for_each` when calls fail and blobs are unreadable -/
set_option linter.unusedSimpArgs false
set_option linter.flexible false
namespace OsmIo
open Spec

variable {T : Nat} {σ : Type}

theorem forEach_inv {z : Zlib} {file : Bytes} {f : Fin T → Element → σ → σ × Bool} {cap : Nat} {s : σ} {ds : List BlobDesc} {p : ForEach T σ}
    (h : ForEachOccurs z file f cap s ds p) : ForEach.Inv (ds.map (iterationCalls z file)) p := by
  obtain ⟨fuel, p, -, hs⟩ := h
  exact ForEach.steps_inv (ForEach.init_inv _ s) hs

/-- C69. At every moment of `parallel_for_each(T, f)`, whichever calls of `f` fail, whichever blobs are unreadable and however the threads are scheduled:
the calls made for a data block are its elements and then the Sentinel, in order, up to some point, all on one thread, and only the last of them can have failed.
For every other blob no call is made. -/
theorem C69_calls (hT : 0 < T) (z : Zlib) (file : Bytes) (f : Fin T → Element → σ → σ × Bool) (cap : Nat) (s : σ) (ds : List BlobDesc) (p : ForEach T σ)
    (h : ForEachOccurs z file f cap s ds p) (k : Nat) (d : BlobDesc) (hd : ds[k]? = some d) :
    (∀ es, FileBlock.fromBlobDesc z file d = .ok (.data es) → ∃ i done rest, es ++ [.sentinel] = done ++ rest ∧
      ((p.log.filter fun x => x.2.1 = k) = (done.map fun e => (i, k, e, true)) ∨
       ∃ init e, done = init ++ [e] ∧ (p.log.filter fun x => x.2.1 = k) = (init.map fun e => (i, k, e, true)) ++ [(i, k, e, false)])) ∧
    ((¬ ∃ es, FileBlock.fromBlobDesc z file d = .ok (.data es)) → (p.log.filter fun x => x.2.1 = k) = []) := by
  have hi := forEach_inv h
  have hk : (ds.map (iterationCalls z file))[k]? = some (iterationCalls z file d) := by simp [hd]
  have key : ∃ done rest, (iterationCalls z file d = none ∧ done = [] ∨ iterationCalls z file d = some (done ++ rest)) ∧
      ((done = [] ∧ ForEach.callsFor p k = []) ∨ ∃ i, (ForEach.callsFor p k = (done.map fun e => (i, k, e, true)) ∨
       ∃ init e, done = init ++ [e] ∧ ForEach.callsFor p k = (init.map fun e => (i, k, e, true)) ++ [(i, k, e, false)])) := by
    have hnone : ForEach.callsFor p k = [] → ∃ done rest, (iterationCalls z file d = none ∧ done = [] ∨ iterationCalls z file d = some (done ++ rest)) ∧
      ((done = [] ∧ ForEach.callsFor p k = []) ∨ ∃ i, (ForEach.callsFor p k = (done.map fun e => (i, k, e, true)) ∨
       ∃ init e, done = init ++ [e] ∧ ForEach.callsFor p k = (init.map fun e => (i, k, e, true)) ++ [(i, k, e, false)])) := by
      intro h0
      cases hc : iterationCalls z file d with
      | none => exact ⟨[], [], .inl ⟨rfl, rfl⟩, .inl ⟨rfl, h0⟩⟩
      | some es => exact ⟨[], es, .inr rfl, .inl ⟨rfl, h0⟩⟩
    by_cases hsent : p.sent ≤ k
    · exact hnone (hi.ahead k hsent)
    by_cases hq : k ∈ p.queue.map (·.1)
    · obtain ⟨x, hx, rfl⟩ := List.mem_map.mp hq
      exact hnone (hi.queue x hx).2.2
    by_cases hr : ∃ i r, p.running i = some (k, r)
    · obtain ⟨i, r, hr⟩ := hr
      obtain ⟨-, -, done, h1, h2⟩ := hi.running i k r hr
      rw [hk] at h1
      exact ⟨done, r, .inr (Option.some.inj h1), .inr ⟨i, .inl h2⟩⟩
    · have hr : ∀ i r, p.running i ≠ some (k, r) := by simpa using hr
      obtain ⟨c, hc, he⟩ := hi.ended k (by omega) hq hr
      rw [hk] at hc
      have hc := Option.some.inj hc
      cases he with
      | all i es h => exact ⟨es, [], .inr (by simpa using hc), .inr ⟨i, .inl h⟩⟩
      | failed i pre e post h => exact ⟨pre ++ [e], post, .inr (by simpa using hc), .inr ⟨i, .inr ⟨pre, e, rfl, h⟩⟩⟩
      | unreadable h => exact hnone h
  obtain ⟨done, rest, h1, h2⟩ := key
  constructor
  · intro es hes
    have hit : iterationCalls z file d = some (es ++ [.sentinel]) := by simp [iterationCalls, hes]
    rw [hit] at h1
    simp at h1
    rcases h2 with ⟨rfl, h2⟩ | ⟨i, h2⟩
    · exact ⟨⟨0, hT⟩, [], rest, h1, .inl h2⟩
    · exact ⟨i, done, rest, h1, h2⟩
  · intro hno
    have hit : iterationCalls z file d = none ∨ iterationCalls z file d = some [] := by
      unfold iterationCalls
      split
      · rename_i es he; exact absurd ⟨es, he⟩ hno
      · exact .inr rfl
      · exact .inl rfl
    have hdone : done = [] := by
      rcases h1 with ⟨-, h⟩ | h
      · exact h
      · rcases hit with hit | hit <;> rw [hit] at h <;> simp at h
        exact h.1
    subst hdone
    rcases h2 with ⟨-, h⟩ | ⟨i, h | ⟨init, e, h, -⟩⟩
    · exact h
    · exact h
    · simp at h

/-- C69. When `parallel_for_each` has returned, for each data block either all calls have been made and succeeded, or the last call made failed. -/
theorem C69_returned (z : Zlib) (file : Bytes) (f : Fin T → Element → σ → σ × Bool) (cap : Nat) (s : σ) (ds : List BlobDesc) (p : ForEach T σ)
    (h : ForEachOccurs z file f cap s ds p) (hr : p.returned = true) (k : Nat) (d : BlobDesc) (hd : ds[k]? = some d) (es : List Element)
    (hes : FileBlock.fromBlobDesc z file d = .ok (.data es)) :
    ∃ i, (p.log.filter fun x => x.2.1 = k) = ((es ++ [Element.sentinel]).map fun e => (i, k, e, true)) ∨
      ∃ done e rest, es ++ [.sentinel] = done ++ e :: rest ∧
        (p.log.filter fun x => x.2.1 = k) = (done.map fun e => (i, k, e, true)) ++ [(i, k, e, false)] := by
  have hi := forEach_inv h
  obtain ⟨h1, h2, h3⟩ := hi.joined hr
  have hsent : p.sent = ds.length := by
    have h4 := hi.left
    have h5 := hi.le
    rw [h1] at h4
    have := List.drop_eq_nil_iff.mp h4.symm
    simp at this h5
    omega
  have hlt : k < ds.length := (List.getElem?_eq_some_iff.mp hd).1
  obtain ⟨c, hc, he⟩ := hi.ended k (by omega) (by simp [h2]) (by simp [h3])
  have hit : iterationCalls z file d = some (es ++ [.sentinel]) := by simp [iterationCalls, hes]
  have : c = some (es ++ [.sentinel]) := by
    simp [hd, hit] at hc
    exact hc.symm
  rw [this] at he
  generalize hg : some (es ++ [Element.sentinel]) = o at he
  cases he with
  | all i es' h =>
    have := Option.some.inj hg
    rw [this]
    exact ⟨i, .inl h⟩
  | failed i pre e post h => exact ⟨i, .inr ⟨pre, e, post, Option.some.inj hg, h⟩⟩
  | unreadable h => simp at hg

/-- C69. Every call belongs to a blob of the file, and the shared state is what the calls made of it, one after the other: calls do not overlap in their effect, and a
call is recorded as failed exactly if it failed. -/
theorem C69_effect (z : Zlib) (file : Bytes) (f : Fin T → Element → σ → σ × Bool) (cap : Nat) (s : σ) (ds : List BlobDesc) (p : ForEach T σ)
    (h : ForEachOccurs z file f cap s ds p) :
    (∀ x ∈ p.log, x.2.1 < ds.length) ∧
    p.shared = p.log.foldl (fun s x => (f x.1 x.2.2.1 s).1) s ∧
    ∀ l x r, p.log = l ++ x :: r → x.2.2.2 = (f x.1 x.2.2.1 (l.foldl (fun s x => (f x.1 x.2.2.1 s).1) s)).2 := by
  have hi := forEach_inv h
  refine ⟨?_, ?_⟩
  · intro x hx
    by_contra hn
    have := hi.ahead x.2.1 (by have := hi.le; simp at this; omega)
    have hm : x ∈ ForEach.callsFor p x.2.1 := List.mem_filter.mpr ⟨hx, by simp⟩
    rw [this] at hm
    simp at hm
  · obtain ⟨fuel, p, -, hs⟩ := h
    exact ForEach.steps_effect hs

/-- C69. If no call failed and every blob could be read, then on return each element of the file has been passed to `f` exactly once, and a Sentinel for each data block. -/
theorem C69_complete (z : Zlib) (file : Bytes) (f : Fin T → Element → σ → σ × Bool) (cap : Nat) (s : σ) (ds : List BlobDesc) (p : ForEach T σ)
    (h : ForEachOccurs z file f cap s ds p) (hr : p.returned = true) (bs : List FileBlock) (hb : HasBlocks z file bs)
    (hok : ∀ x ∈ p.log, x.2.2.2 = true) :
    (p.log.map (·.2.2.1)).Perm (bs.flatMap elementsOf ++ List.replicate (bs.countP isData) .sentinel) := by
  have hbound := (C69_effect z file f cap s ds p h).1
  have hret := C69_returned z file f cap s ds p h hr
  have hinv := forEach_inv h
  obtain ⟨fuel, hb⟩ := hb
  obtain ⟨fuel', p, hds, hs⟩ := h
  obtain ⟨ds', h1', h2', h3'⟩ := commands_of_blocks fuel {} bs hb
  obtain rfl := takeBlobs_mono fuel' fuel {} ds ds' hds h1'
  have hlen : ds.length = bs.length := h3'.length_eq
  have hcalls : ∀ k b, bs[k]? = some b → (p.log.filter fun x => x.2.1 = k).map (·.2.2.1) = callsFor b := by
    intro k b hk
    have hlt : k < ds.length := by rw [hlen]; exact (List.getElem?_eq_some_iff.mp hk).1
    have hd : ds[k]? = some ds[k] := List.getElem?_eq_getElem hlt
    have hfb : FileBlock.fromBlobDesc z file ds[k] = .ok b := by
      have hlt' : k < bs.length := by omega
      have := List.forall₂_iff_get.mp h3' |>.2 k hlt hlt'
      simp at this
      rw [this]
      congr 1
      have := List.getElem?_eq_getElem hlt'
      rw [hk] at this
      exact (Option.some.inj this).symm
    cases b with
    | data es =>
      obtain ⟨i, h | ⟨done, e, rest, -, h⟩⟩ := hret k _ hd es hfb
      · rw [h]
        simp [callsFor, Function.comp_def]
      · have hm : (i, k, e, false) ∈ p.log := by
          have : (i, k, e, false) ∈ p.log.filter fun x => x.2.1 = k := by rw [h]; simp
          exact (List.mem_filter.mp this).1
        exact absurd (hok _ hm) (by simp)
    | header info =>
      obtain ⟨h1, h2, h3⟩ := hinv.joined hr
      have hsent : p.sent = ds.length := by
        have h4 := hinv.left
        have h5 := hinv.le
        rw [h1] at h4
        have := List.drop_eq_nil_iff.mp h4.symm
        simp at this h5
        omega
      obtain ⟨c, hc, he⟩ := hinv.ended k (by omega) (by simp [h2]) (by simp [h3])
      have hcc : c = some [] := by
        simp [hd, iterationCalls, hfb] at hc
        exact hc.symm
      subst hcc
      generalize hg : some ([] : List Element) = o at he
      cases he with
      | all i es' h =>
        have := Option.some.inj hg
        subst this
        have h : (p.log.filter fun x => x.2.1 = k) = [] := by simpa [ForEach.callsFor] using h
        rw [h]; rfl
      | failed i pre e post h => simp at hg
      | unreadable h => simp at hg
  have h1 := (Pool.perm_parts (fun x : Fin T × Nat × Element × Bool => x.2.1) bs.length p.log (by rw [← hlen]; exact hbound)).map (·.2.2.1)
  refine h1.trans ?_
  rw [List.map_flatMap]
  have h2 : ((List.range bs.length).flatMap fun k => (p.log.filter fun x => x.2.1 = k).map (·.2.2.1)) = bs.flatMap callsFor := by
    rw [List.flatMap_def, List.flatMap_def]
    congr 1
    apply List.ext_getElem
    · simp
    · intro k hk1 hk2
      simp at hk1 hk2 ⊢
      exact hcalls k _ (List.getElem?_eq_getElem hk2)
  rw [h2]
  clear * -
  induction bs with
  | nil => simp
  | cons b bs ih =>
    cases b with
    | data es =>
      simp only [List.flatMap_cons, callsFor, elementsOf, List.countP_cons, isData, if_true]
      rw [List.replicate_succ']
      refine (ih.append_left (es ++ [Element.sentinel])).trans ?_
      rw [List.append_assoc es, List.append_assoc es]
      refine List.Perm.append_left es ?_
      simp only [← List.append_assoc]
      exact (List.perm_append_comm (l₁ := [Element.sentinel])).trans (by simp)
    | header info => simpa [callsFor, elementsOf, isData] using ih

/-- C69. No schedule goes on for ever; and as long as no thread has died of a failed command, some thread or the caller can go on, with a queue of any positive
length, and `parallel_for_each` can still return. -/
theorem C69_no_deadlock (z : Zlib) (file : Bytes) (f : Fin T → Element → σ → σ × Bool) (cap : Nat) (s : σ) (ds : List BlobDesc) (hT : 0 < T)
    (hc : 0 < cap) (p : ForEach T σ) (h : ForEachOccurs z file f cap s ds p) :
    ((∀ i, p.dead i = false) → p.returned = false → ∃ q, ForEach.Step f cap p q) ∧
    ((∀ i, p.dead i = false) → ∃ q, ForEachOccurs z file f cap s ds q ∧ ForEach.Steps f cap p q ∧ q.returned = true) ∧
    ¬ ∃ r : Nat → ForEach T σ, r 0 = p ∧ ∀ n, ForEach.Step f cap (r n) (r (n + 1)) := by
  refine ⟨fun hd hr => (ForEach.progress hT hc hd hr).imp fun _ h => h.1, ?_, ?_⟩
  · intro hd
    have key : ∃ q, ForEach.Steps f cap p q ∧ q.returned = true := by
      clear h
      induction hw : ForEach.work p using Nat.strong_induction_on generalizing p with
      | _ n ih =>
        cases hr : p.returned with
        | true => exact ⟨p, .refl, hr⟩
        | false =>
          obtain ⟨q, hq, hdq⟩ := ForEach.progress (f := f) hT hc hd hr
          obtain ⟨t, h1, h2⟩ := ih _ (hw ▸ ForEach.step_work hq) q hdq rfl
          exact ⟨t, .head hq h1, h2⟩
    obtain ⟨q, h1, h2⟩ := key
    obtain ⟨fuel, p, hb, hs⟩ := h
    exact ⟨q, .run fuel q hb (hs.trans h1), h1, h2⟩
  · rintro ⟨r, -, hr⟩
    have hdec : ∀ n, ForEach.work (r n) + n ≤ ForEach.work (r 0) := by
      intro n
      induction n with
      | zero => simp
      | succ n ih =>
        have := ForEach.step_work (hr n)
        omega
    have := hdec (ForEach.work (r 0) + 1)
    omega

/-! ### A concrete file -/

/-- A function that counts its calls and fails for ways. -/
def exFails (_ : Fin 2) (e : Element) (n : Nat) : Nat × Bool := (n + 1, !e.isWay)

/-- With it and a file of two headers, an empty block and two blocks with a way, `parallel_for_each` can return; the empty block has had its Sentinel, and the ways were
the last calls for their blocks. -/
example : ∃ ds, ∃ p : ForEach 2 Nat, ForEachOccurs exZ exFile exFails 1 0 ds p ∧ p.returned = true ∧
    (∃ i, (p.log.filter fun x => x.2.1 = 1) = [(i, 1, .sentinel, true)]) ∧
    (∃ i, (p.log.filter fun x => x.2.1 = 2) = [(i, 2, .way exWay, false)]) := by
  obtain ⟨ds, hb⟩ : ∃ ds, takeBlobs exFile 6 {} = (ds, .done) ∧ (ds[1]?.map fun d => FileBlock.fromBlobDesc exZ exFile d) = some (.ok (.data [])) ∧
      (ds[2]?.map fun d => FileBlock.fromBlobDesc exZ exFile d) = some (.ok (.data [.way exWay])) :=
    ⟨(takeBlobs exFile 6 {}).1, Prod.ext rfl (by decide +kernel), by decide +kernel, by decide +kernel⟩
  obtain ⟨hb, h1, h2⟩ := hb
  obtain ⟨p, hp, -, hr⟩ := (C69_no_deadlock exZ exFile exFails 1 0 ds Nat.two_pos Nat.one_pos _ (.run 6 _ hb .refl)).2.1 (fun _ => rfl)
  refine ⟨ds, p, hp, hr, ?_, ?_⟩
  · obtain ⟨d, hd, he⟩ := Option.map_eq_some_iff.mp h1
    obtain ⟨i, h | ⟨done, e, rest, h, h'⟩⟩ := C69_returned exZ exFile exFails 1 0 ds p hp hr 1 d hd [] he
    · exact ⟨i, by simpa using h⟩
    · exfalso
      obtain ⟨rfl, rfl, rfl⟩ : done = [] ∧ e = .sentinel ∧ rest = [] := by
        cases done <;> simp at h
        exact ⟨rfl, h.1.symm, h.2⟩
      have hm : (i, 1, Element.sentinel, false) ∈ p.log := (List.mem_filter.mp (h' ▸ (by simp : _ ∈ _ ++ [(i, 1, Element.sentinel, false)]))).1
      obtain ⟨l, r, hl⟩ := List.append_of_mem hm
      have := (C69_effect exZ exFile exFails 1 0 ds p hp).2.2 l _ r hl
      simp [exFails, Element.isWay] at this
  · obtain ⟨d, hd, he⟩ := Option.map_eq_some_iff.mp h2
    obtain ⟨i, h | ⟨done, e, rest, h, h'⟩⟩ := C69_returned exZ exFile exFails 1 0 ds p hp hr 2 d hd [.way exWay] he
    · exfalso
      have hm : (i, 2, Element.way exWay, true) ∈ p.log := by
        have : (i, 2, Element.way exWay, true) ∈ p.log.filter fun x => x.2.1 = 2 := by rw [h]; simp
        exact (List.mem_filter.mp this).1
      obtain ⟨l, r, hl⟩ := List.append_of_mem hm
      have := (C69_effect exZ exFile exFails 1 0 ds p hp).2.2 l _ r hl
      simp [exFails, Element.isWay] at this
    · cases done with
      | nil =>
        simp at h
        refine ⟨i, ?_⟩
        rw [h']
        simp [h.1]
      | cons x done =>
        exfalso
        simp at h
        have hm : (i, 2, Element.way exWay, true) ∈ p.log := by
          have : (i, 2, Element.way exWay, true) ∈ p.log.filter fun x => x.2.1 = 2 := by rw [h']; simp [h.1]
          exact (List.mem_filter.mp this).1
        obtain ⟨l, r, hl⟩ := List.append_of_mem hm
        have := (C69_effect exZ exFile exFails 1 0 ds p hp).2.2 l _ r hl
        simp [exFails, Element.isWay] at this

end OsmIo
