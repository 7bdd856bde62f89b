import Verif.Props.Parallel
import Mathlib.Data.Multiset.AddSub
import Mathlib.Algebra.Order.Group.Multiset
/-! # C28: thread local accumulation -/
set_option linter.unusedSimpArgs false
set_option linter.flexible false
namespace OsmIo
open Spec Pool

/-- The elements of a list the caller keeps. -/
def keptOnes (keep : Element → Bool) (es : List Element) : List Element := es.filter fun e => !e.isSentinel && keep e

/-- The batch a command still owes. -/
def owed (keep : Element → Bool) (acc : List Element) : List Element → Multiset (List Element)
  | [] => 0
  | rest => {acc ++ keptOnes keep rest}

/-- What thread `i` still owes. -/
def owedBy {T : Nat} (keep : Element → Bool) (p : Pool T Element (TlState T)) (i : Fin T) : Multiset (List Element) :=
  match p.running i with
  | none => 0
  | some (_, rest) => owed keep (p.shared.acc i) rest

/-- A command: nothing, or elements and then the Sentinel. -/
def Cmd (c : List Element) : Prop := c = [] ∨ ∃ es, c = es ++ [.sentinel] ∧ ∀ e ∈ es, e.isSentinel = false

structure TlInv {T : Nat} (keep : Element → Bool) (total : Multiset (List Element)) (p : Pool T Element (TlState T)) : Prop where
  cmds : ∀ c ∈ p.pending, Cmd c.2
  run : ∀ i k rest, p.running i = some (k, rest) → Cmd rest ∧ (rest = [] → p.shared.acc i = [])
  idle : ∀ i, p.running i = none → p.shared.acc i = []
  sum : (p.shared.batches : Multiset (List Element)) + (p.pending.map fun c => owed keep [] c.2).sum + ∑ i, owedBy keep p i = total

theorem sum_change {T : Nat} {M : Type} [AddCommMonoid M] (f g : Fin T → M) (i : Fin T) (h : ∀ j, j ≠ i → f j = g j) :
    ∃ r, ∑ j, f j = f i + r ∧ ∑ j, g j = g i + r := by
  refine ⟨∑ j ∈ Finset.univ.erase i, f j, (Finset.add_sum_erase _ _ (Finset.mem_univ i)).symm, ?_⟩
  rw [← Finset.add_sum_erase _ _ (Finset.mem_univ i)]
  congr 1
  exact Finset.sum_congr rfl fun j hj => (h j (Finset.ne_of_mem_erase hj)).symm

theorem tl_step {T : Nat} {keep : Element → Bool} {total : Multiset (List Element)} {p q : Pool T Element (TlState T)}
    (h : TlInv keep total p) (hs : Step (tlAct keep) p q) : TlInv keep total q := by
  cases hs with
  | take i l r c hp hi =>
    refine ⟨?_, ?_, ?_, ?_⟩
    · intro x hx; apply h.cmds; rw [hp]; simp at hx ⊢; tauto
    · intro j k rest hj
      by_cases hji : j = i
      · subst hji
        simp at hj; subst hj
        exact ⟨h.cmds (k, rest) (by rw [hp]; simp), fun _ => h.idle j hi⟩
      · simp [hji] at hj
        exact h.run j k rest hj
    · intro j hj
      by_cases hji : j = i
      · subst hji; simp at hj
      · simp [hji] at hj; exact h.idle j hj
    · rw [← h.sum, hp]
      set q : Pool T Element (TlState T) := { p with pending := l ++ r, running := Function.update p.running i (some c) } with hq
      obtain ⟨rest, h1, h2⟩ := sum_change (owedBy keep p) (owedBy keep q) i fun j hj => by
        simp [owedBy, hq, hj]
      rw [h1, h2]
      have e1 : owedBy keep p i = 0 := by simp [owedBy, hi]
      have e2 : owedBy keep q i = owed keep [] c.2 := by simp [owedBy, hq, h.idle i hi]
      rw [e1, e2]
      simp [hq, List.sum_append]
      abel
  | act i k a rest hi =>
    obtain ⟨hc, -⟩ := h.run i k (a :: rest) hi
    have hacc : ∀ j, j ≠ i → (tlAct keep i a p.shared).acc j = p.shared.acc j := by
      intro j hj
      unfold tlAct
      split
      · simp [TlState.elements, hj]
      · split
        · simp [TlState.add, hj]
        · rfl
    -- what the action is
    have hcase : (a = .sentinel ∧ rest = []) ∨ (a.isSentinel = false ∧ rest ≠ [] ∧ Cmd rest) := by
      rcases hc with hc | ⟨es, he, hes⟩
      · simp at hc
      · cases es with
        | nil => simp at he; exact .inl he
        | cons x es =>
          simp at he
          obtain ⟨rfl, rfl⟩ := he
          exact .inr ⟨hes _ (by simp), by simp, .inr ⟨es, rfl, fun e he => hes e (by simp [he])⟩⟩
    have hrest : Cmd rest := by
      rcases hcase with ⟨-, rfl⟩ | ⟨-, -, h⟩
      · exact .inl rfl
      · exact h
    refine ⟨h.cmds, ?_, ?_, ?_⟩
    · intro j k' r hj
      by_cases hji : j = i
      · subst hji
        simp at hj
        obtain ⟨rfl, rfl⟩ := hj
        refine ⟨hrest, ?_⟩
        intro hr
        rcases hcase with ⟨rfl, -⟩ | ⟨-, hne, -⟩
        · simp [tlAct, TlState.elements]
        · exact absurd hr hne
      · simp [hji] at hj
        simp only [hacc j hji]
        exact h.run j k' r hj
    · intro j hj
      by_cases hji : j = i
      · subst hji; simp at hj
      · simp [hji] at hj
        simp only [hacc j hji]
        exact h.idle j hj
    · rw [← h.sum]
      set q : Pool T Element (TlState T) := { p with running := Function.update p.running i (some (k, rest)), shared := tlAct keep i a p.shared, log := p.log ++ [(i, k, a)] } with hq
      obtain ⟨rst, h1, h2⟩ := sum_change (owedBy keep p) (owedBy keep q) i fun j hj => by
        simp only [owedBy, hq, Function.update_apply, hj, if_false, hacc j hj]
      rw [h1, h2]
      have e1 : owedBy keep p i = {p.shared.acc i ++ keptOnes keep (a :: rest)} := by simp [owedBy, hi, owed]
      rw [e1]
      have hqp : q.pending = p.pending := rfl
      rw [hqp]
      rcases hcase with ⟨rfl, rfl⟩ | ⟨ha, hne, -⟩
      · have e2 : owedBy keep q i = 0 := by simp [owedBy, hq, owed]
        have e3 : q.shared.batches = p.shared.batches ++ [p.shared.acc i] := by simp [hq, tlAct, TlState.elements]
        rw [e2, e3]
        simp [keptOnes, Element.isSentinel, ← Multiset.coe_add]
        rw [← Multiset.singleton_add]
        abel
      · have e3 : q.shared.batches = p.shared.batches := by
          simp only [hq, tlAct]
          split
          · simp [Element.isSentinel] at ha
          · split <;> simp [TlState.add]
        have e2 : owedBy keep q i = {p.shared.acc i ++ keptOnes keep (a :: rest)} := by
          simp only [owedBy, hq, Function.update_self]
          obtain ⟨x, r, rfl⟩ := List.exists_cons_of_ne_nil hne
          simp only [owed]
          congr 1
          unfold tlAct
          split
          · simp [Element.isSentinel] at ha
          · split
            · rename_i hk
              simp [TlState.add, keptOnes, ha, hk]
            · rename_i hk
              simp [keptOnes, ha, hk]
        rw [e2, e3]
  | finish i k hi =>
    refine ⟨h.cmds, ?_, ?_, ?_⟩
    · intro j k' r hj
      by_cases hji : j = i
      · subst hji; simp at hj
      · simp [hji] at hj; exact h.run j k' r hj
    · intro j hj
      by_cases hji : j = i
      · subst hji; exact (h.run j k [] hi).2 rfl
      · simp [hji] at hj; exact h.idle j hj
    · rw [← h.sum]
      congr 1
      apply Finset.sum_congr rfl
      intro j _
      by_cases hji : j = i
      · subst hji; simp [owedBy, hi, owed]
      · simp [owedBy, hji]

theorem multiset_singletons {α β : Type} (f : β → Multiset α) (g : β → α) (l : List β) (h : ∀ x ∈ l, f x = {g x}) :
    (l.map f).sum = ((l.map g : List α) : Multiset α) := by
  induction l with
  | nil => simp
  | cons x l ih =>
    simp only [List.map_cons, List.sum_cons, h x (by simp), ih fun y hy => h y (by simp [hy])]
    rfl

/-- C28. The batches handed out when the function accumulates the elements it keeps and takes the batch at each Sentinel (the documented
use): for each data block exactly one batch, holding the kept elements of that block in order; nothing is left
in any accumulator; hence every kept element of the file is handed out exactly once. -/
theorem C28_accumulator_loses_nothing (z : Zlib) (file : Bytes) (bs : List FileBlock) (hb : HasBlocks z file bs) (T : Nat)
    (keep : Element → Bool) (p : Pool T Element (TlState T))
    (hp : ParallelForEach z file (tlAct keep) ⟨fun _ => [], []⟩ p) :
    p.shared.batches.Perm ((bs.filter isData).map fun b => (elementsOf b).filter keep) ∧
    p.shared.batches.flatten.Perm ((bs.flatMap elementsOf).filter keep) ∧
    ∀ i, p.shared.acc i = [] := by
  have hreal := hasBlocks_real hb
  obtain ⟨fuel, hb⟩ := hb
  obtain ⟨fuel', ds, calls, p, h1, h2, hs, hd⟩ := hp
  obtain ⟨ds', h1', h2', -⟩ := commands_of_blocks fuel {} bs hb
  obtain rfl := takeBlobs_mono fuel' fuel {} ds ds' h1 h1'
  rw [h2'] at h2
  simp at h2
  subst h2
  have hkeep : ∀ b ∈ bs, keptOnes keep (elementsOf b) = (elementsOf b).filter keep := by
    intro b hb
    apply List.filter_congr
    intro e he
    simp [hreal b hb e he]
  have hcmds : ∀ b ∈ bs, owed keep [] (callsFor b) = if isData b then {(elementsOf b).filter keep} else 0 := by
    intro b hb
    cases b with
    | header i => simp [callsFor, owed, isData]
    | data es =>
      have : keptOnes keep (es ++ [.sentinel]) = es.filter keep := by
        rw [← show _ = es.filter keep from hkeep _ hb]
        simp [keptOnes, Element.isSentinel, elementsOf]
      obtain ⟨x, r, hx⟩ := List.exists_cons_of_ne_nil (show es ++ [Element.sentinel] ≠ [] by simp)
      simp only [callsFor, isData, if_true, elementsOf, hx, owed]
      rw [← hx, this]; rfl
  have hinit : TlInv keep ((((bs.filter isData).map fun b => (elementsOf b).filter keep) : List (List Element)) : Multiset (List Element))
      (init (T := T) (bs.map callsFor) ⟨fun _ => [], []⟩) := by
    refine ⟨?_, by simp [init], by simp [init], ?_⟩
    · intro c hc
      simp only [init, List.mem_map] at hc
      obtain ⟨x, hx, rfl⟩ := hc
      have : x.1 ∈ bs.map callsFor := by
        have := List.mem_zipIdx hx
        rw [this.2.2]; exact List.getElem_mem _
      obtain ⟨b, hb, he⟩ := List.mem_map.mp this
      simp only [← he]
      cases b with
      | header i => exact .inl rfl
      | data es => exact .inr ⟨es, rfl, hreal _ hb⟩
    · have : ((init (T := T) (bs.map callsFor) (⟨fun _ => [], []⟩ : TlState T)).pending.map fun c => owed keep [] c.2) =
          bs.map fun b => owed keep [] (callsFor b) := by
        simp only [init, List.map_map]
        rw [show ((fun c : Nat × List Element => owed keep [] c.2) ∘ fun c : List Element × Nat => (c.2, c.1)) =
          (fun c => owed keep [] c) ∘ Prod.fst from rfl, ← List.map_map, List.zipIdx_map_fst, List.map_map]
        rfl
      rw [this]
      have hz : ∑ i, owedBy keep (init (T := T) (bs.map callsFor) ⟨fun _ => [], []⟩) i = 0 := by simp [owedBy, init]
      rw [hz]
      simp only [init, Multiset.coe_nil, zero_add, add_zero]
      rw [← multiset_singletons (fun b => {(elementsOf b).filter keep}) _ _ (fun _ _ => rfl)]
      clear h1 h2' hs hkeep hb h1' hreal this hz
      induction bs with
      | nil => simp
      | cons b bs ih =>
        have := ih fun b hb => hcmds b (by simp [hb])
        simp only [List.map_cons, List.sum_cons, this, hcmds b (by simp), List.filter_cons]
        split <;> simp
  have hinv : TlInv keep ((((bs.filter isData).map fun b => (elementsOf b).filter keep) : List (List Element)) : Multiset (List Element)) p := by
    clear hd
    induction hs with
    | refl => exact hinit
    | tail _ hs ih => exact tl_step ih hs
  have hsum := hinv.sum
  have hz : ∑ i, owedBy keep p i = 0 := by simp [owedBy, hd.2]
  rw [hz, hd.1] at hsum
  simp at hsum
  refine ⟨hsum, ?_, fun i => hinv.idle i (hd.2 i)⟩
  refine (hsum.flatten).trans (List.Perm.of_eq ?_)
  clear hsum hinv hinit hcmds h1 h2' hs hkeep hb h1' hreal
  induction bs with
  | nil => simp
  | cons b bs ih =>
    cases b <;> simp_all [List.filter_cons, isData, elementsOf]

end OsmIo
