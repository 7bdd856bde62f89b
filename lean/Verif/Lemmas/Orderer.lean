import Verif.Spec.ParallelWriter
import Verif.Props.Box
/-! # The ordering thread of the parallel writer -/
set_option linter.unusedSimpArgs false
set_option linter.flexible false
namespace OsmIo
open Spec

/-! ## Sorting -/

/-- The order as a Boolean, total and transitive on all elements. -/
def leB (a b : Element) : Bool := !decide (Before b a)

theorem le_eq_leB (a b : Element) (ha : a ≠ .sentinel) (hb : b ≠ .sentinel) : a.le b = leB a b := by
  have h := (C23_order_is_type_id_version a b ha hb).2.1
  unfold Element.le leB
  by_cases hB : Before b a
  · simp [hB, h.mpr hB]
  · have : a.cmp b ≠ .gt := fun hc => hB (h.mp hc)
    simp [hB, this]

theorem notBefore_trans {a b c : Element} (h1 : ¬ Before b a) (h2 : ¬ Before c b) : ¬ Before c a := by
  obtain ⟨hab, -, -⟩ := C23_order_total a b c
  obtain ⟨hbc, -, -⟩ := C23_order_total b c a
  intro h
  rcases hab with ⟨x, -, -⟩ | ⟨-, x, -⟩ | ⟨-, -, x⟩
  · exact h2 ((C23_order_total c a b).2.1 h x)
  · exact h2 (((C23_order_total a b c).2.2 x).2.mp h)
  · exact h1 x

theorem before_of_before_of_not {a b c : Element} (h1 : Before a b) (h2 : ¬ Before c b) : Before a c := by
  by_contra h
  exact notBefore_trans (a := b) (b := c) (c := a) h2 h h1

theorem leB_trans (a b c : Element) (h1 : leB a b = true) (h2 : leB b c = true) : leB a c = true := by
  simp only [leB, Bool.not_eq_true', decide_eq_false_iff_not] at *
  exact notBefore_trans h1 h2

theorem leB_total (a b : Element) : (leB a b || leB b a) = true := by
  have := (C23_order_total a b a).1
  simp only [leB, Bool.or_eq_true, Bool.not_eq_true', decide_eq_false_iff_not]
  tauto

theorem sort_eq (S : StdSort) {l : List Element} (h : NoSentinel l) : S.sort l = l.mergeSort leB := by
  rw [S.stable l h]
  have := List.map_mergeSort (f := id) (r := Element.le) (s := leB) (l := l) (fun a ha b hb => le_eq_leB a b (h a ha) (h b hb))
  simpa using this

theorem sort_sorted (S : StdSort) {l : List Element} (h : NoSentinel l) : Sorted (S.sort l) := by
  rw [sort_eq S h]
  have := List.pairwise_mergeSort leB_trans leB_total l
  simpa [Sorted, leB] using this

theorem sort_of_sorted (S : StdSort) {l : List Element} (h : NoSentinel l) (hs : Sorted l) : S.sort l = l := by
  rw [sort_eq S h]
  exact List.mergeSort_of_pairwise (by simpa [Sorted, leB] using hs)

theorem noSentinel_perm {l l' : List Element} (hp : l.Perm l') (h : NoSentinel l) : NoSentinel l' :=
  fun e he => h e (hp.mem_iff.mpr he)

/-! ## Splitting -/

theorem splitGo_spec : ∀ (n : Nat) (els buf : List Element),
    (splitGo n els buf).1 ++ (splitGo n els buf).2 = els ++ buf ∧ els <+: (splitGo n els buf).1 ∧
    (splitGo n els buf).1.length ≤ els.length + n ∧
    ((∀ e ∈ els, els.head?.elim true fun f => e.sameType f) →
      ∀ e ∈ (splitGo n els buf).1, (splitGo n els buf).1.head?.elim true fun f => e.sameType f) := by
  intro n
  induction n with
  | zero => intro els buf; simp [splitGo]
  | succ n ih =>
    intro els buf
    cases buf with
    | nil => simp [splitGo]
    | cons e buf =>
      unfold splitGo
      split
      · rename_i hc
        obtain ⟨h1, h2, h3, h4⟩ := ih (els ++ [e]) buf
        refine ⟨by simpa using h1, (List.prefix_append els [e]).trans h2, ?_, fun h => h4 ?_⟩
        · simp at h3; omega
        · intro x hx
          cases els with
          | nil => simp at hx; subst hx; cases x <;> rfl
          | cons f els =>
            simp at hx hc ⊢
            have := h f (by simp)
            rcases hx with rfl | hx | rfl
            · simpa using this
            · simpa using h x (by simp [hx])
            · exact hc
      · exact ⟨rfl, List.prefix_refl _, by simp, fun h => h⟩

theorem split_append (n : Nat) (buf : List Element) : (splitFileBlock n buf).1 ++ (splitFileBlock n buf).2 = buf := by
  simpa [splitFileBlock] using (splitGo_spec n [] buf).1

theorem split_length (n : Nat) (buf : List Element) : (splitFileBlock n buf).1.length ≤ n := by
  simpa [splitFileBlock] using (splitGo_spec n [] buf).2.2.1

theorem split_ne_nil {n : Nat} (hn : 0 < n) {buf : List Element} (hb : buf ≠ []) : (splitFileBlock n buf).1 ≠ [] := by
  obtain ⟨e, r, rfl⟩ := List.exists_cons_of_ne_nil hb
  obtain ⟨n, rfl⟩ := Nat.exists_eq_succ_of_ne_zero (by omega : n ≠ 0)
  unfold splitFileBlock splitGo
  simp
  have := (splitGo_spec n [e] r).2.1
  intro h
  rw [h] at this
  simp at this

/-- The elements of a block have one type. -/
def OneType (b : List Element) : Prop := ∀ e ∈ b, ∀ f ∈ b, e.sameType f = true

theorem sameType_trans {a b c : Element} (h1 : a.sameType b = true) (h2 : c.sameType b = true) : a.sameType c = true := by
  cases a <;> cases b <;> cases c <;> simp_all [Element.sameType]

theorem split_oneType (n : Nat) (buf : List Element) : OneType (splitFileBlock n buf).1 := by
  have h := (splitGo_spec n [] buf).2.2.2 (by simp)
  intro e he f hf
  unfold splitFileBlock at he hf
  generalize (splitGo n [] buf).1 = l at *
  cases l with
  | nil => simp at he
  | cons x l => exact sameType_trans (h e he) (h f hf)

/-! ## What a step does -/

theorem emit_all (n : Nat) (s : Orderer) : (s.emit n).blocks.flatten ++ (s.emit n).buffer = s.blocks.flatten ++ s.buffer := by
  simp only [Orderer.emit]
  simp [split_append]

theorem flushTop_perm (S : StdSort) (n : Nat) (s : Orderer) :
    ∃ b, (s.flushTop S n).blocks = s.blocks ++ [b] ∧ (b ++ (s.flushTop S n).buffer) = S.sort s.buffer ∧
      b = (splitFileBlock n (S.sort s.buffer)).1 ∧ (s.flushTop S n).min = b.head?.or s.min := by
  exact ⟨_, rfl, split_append _ _, rfl, rfl⟩

theorem ord_push_ok {s s' : Orderer} {e : Element} (h : s.push e = .ok s') :
    s' = { s with buffer := s.buffer ++ [e] } ∧ s.assertOrder e = true := by
  unfold Orderer.push at h
  split at h
  · rename_i hc; simp at h; exact ⟨h.symm, hc⟩
  · simp at h

theorem pushes_ok {es : List Element} {s s' : Orderer} (h : es.foldlM (fun s e => s.push e) s = .ok s') :
    s' = { s with buffer := s.buffer ++ es } ∧ ∀ e ∈ es, s.assertOrder e = true := by
  induction es generalizing s with
  | nil => simp at h; subst h; simp
  | cons e es ih =>
    simp only [List.foldlM_cons, Out.bind_eq_ok] at h
    obtain ⟨s1, h1, h2⟩ := h
    obtain ⟨rfl, ha⟩ := ord_push_ok h1
    obtain ⟨rfl, hb⟩ := ih h2
    refine ⟨by simp, ?_⟩
    intro x hx
    simp at hx
    rcases hx with rfl | hx
    · exact ha
    · exact hb x hx

theorem pushes_of {es : List Element} {s : Orderer} (h : ∀ e ∈ es, s.assertOrder e = true) :
    es.foldlM (fun s e => s.push e) s = .ok { s with buffer := s.buffer ++ es } := by
  induction es generalizing s with
  | nil => simp
  | cons e es ih =>
    simp only [List.foldlM_cons]
    have : s.push e = .ok { s with buffer := s.buffer ++ [e] } := by simp [Orderer.push, h e (by simp)]
    rw [this]
    simp only [Out.ok_bind]
    rw [ih (s := { s with buffer := s.buffer ++ [e] }) (fun x hx => h x (by simp [hx]))]
    simp

theorem pushes_panic {es : List Element} {s : Orderer} (h : ∃ e ∈ es, s.assertOrder e = false) :
    es.foldlM (fun s e => s.push e) s = .panic := by
  induction es generalizing s with
  | nil => simp at h
  | cons e es ih =>
    simp only [List.foldlM_cons]
    by_cases he : s.assertOrder e = true
    · have : s.push e = .ok { s with buffer := s.buffer ++ [e] } := by simp [Orderer.push, he]
      rw [this]
      simp only [Out.ok_bind]
      apply ih
      obtain ⟨x, hx, hx'⟩ := h
      simp at hx
      rcases hx with rfl | hx
      · rw [he] at hx'; simp at hx'
      · exact ⟨x, hx, hx'⟩
    · simp [Orderer.push, he]

/-- A call accepts its elements and may emit a block. -/
theorem exec_iff (S : StdSort) (B F : Nat) (s : Orderer) (call : WriteCall) :
    ((∀ e ∈ submitted [call], s.assertOrder e = true) →
      s.exec S B F call = .ok (Orderer.checkFull S B F { s with buffer := s.buffer ++ submitted [call] })) ∧
    ((∃ e ∈ submitted [call], s.assertOrder e = false) → s.exec S B F call = .panic) := by
  cases call with
  | element e => simp [submitted, Orderer.exec, Orderer.push]; refine ⟨fun h => by simp [h], fun h => by simp [h]⟩
  | elements es =>
    simp only [submitted, Orderer.exec, List.flatMap_cons, List.flatMap_nil, List.append_nil]
    refine ⟨fun h => ?_, fun h => ?_⟩
    · rw [pushes_of h]; rfl
    · rw [pushes_panic h]; rfl

theorem exec_ok {S : StdSort} {B F : Nat} {s s' : Orderer} {call : WriteCall} (h : s.exec S B F call = .ok s') :
    (∀ e ∈ submitted [call], s.assertOrder e = true) ∧
    s' = Orderer.checkFull S B F { s with buffer := s.buffer ++ submitted [call] } := by
  have hi := exec_iff S B F s call
  by_cases hc : ∀ e ∈ submitted [call], s.assertOrder e = true
  · refine ⟨hc, ?_⟩
    rw [hi.1 hc] at h
    simpa using h.symm
  · have : ∃ e ∈ submitted [call], s.assertOrder e = false := by
      by_contra hn
      apply hc
      intro e he
      by_contra hne
      exact hn ⟨e, he, by simpa using hne⟩
    rw [hi.2 this] at h
    simp at h

theorem checkFull_perm (S : StdSort) (B F : Nat) (s : Orderer) :
    ∃ new, (s.checkFull S B F).blocks = s.blocks ++ new ∧ (new.flatten ++ (s.checkFull S B F).buffer).Perm s.buffer := by
  unfold Orderer.checkFull
  split
  · obtain ⟨b, h1, h2, -⟩ := flushTop_perm S F s
    refine ⟨[b], h1, ?_⟩
    simp only [List.flatten_cons, List.flatten_nil, List.append_nil]
    rw [h2]
    exact S.perm _
  · exact ⟨[], by simp, by simp⟩

theorem submitted_cons (c : WriteCall) (cs : List WriteCall) : submitted (c :: cs) = submitted [c] ++ submitted cs := by
  simp [submitted]

theorem submitted_append (a b : List WriteCall) : submitted (a ++ b) = submitted a ++ submitted b := by
  simp [submitted]

theorem run_append (S : StdSort) (B F : Nat) (s : Orderer) (a b : List WriteCall) :
    s.run S B F (a ++ b) = (s.run S B F a >>= fun s => s.run S B F b) := by
  unfold Orderer.run
  rw [List.foldlM_append]

theorem run_cons (S : StdSort) (B F : Nat) (s : Orderer) (c : WriteCall) (b : List WriteCall) :
    s.run S B F (c :: b) = (s.exec S B F c >>= fun s => s.run S B F b) := rfl

theorem run_perm {S : StdSort} {B F : Nat} {calls : List WriteCall} {s s' : Orderer} (h : s.run S B F calls = .ok s') :
    ∃ new, s'.blocks = s.blocks ++ new ∧ (new.flatten ++ s'.buffer).Perm (s.buffer ++ submitted calls) := by
  induction calls generalizing s with
  | nil => simp [Orderer.run] at h; subst h; exact ⟨[], by simp, by simp [submitted]⟩
  | cons c cs ih =>
    rw [run_cons, Out.bind_eq_ok] at h
    obtain ⟨s1, h1, h2⟩ := h
    obtain ⟨-, rfl⟩ := exec_ok h1
    obtain ⟨new1, e1, p1⟩ := checkFull_perm S B F { s with buffer := s.buffer ++ submitted [c] }
    obtain ⟨new2, e2, p2⟩ := ih h2
    refine ⟨new1 ++ new2, by rw [e2, e1]; simp, ?_⟩
    rw [submitted_cons, ← List.append_assoc]
    simp only [List.flatten_append, List.append_assoc]
    refine (p2.append_left _).trans ?_
    rw [← List.append_assoc, ← List.append_assoc]
    exact p1.append_right _

theorem flushLoop_perm {F : Nat} {s s' : Orderer} (h : Orderer.FlushLoop F s s') :
    s'.buffer = [] ∧ ∃ new, s'.blocks = s.blocks ++ new ∧ new.flatten = s.buffer := by
  induction h with
  | done s h => exact ⟨h, [], by simp, by simp [h]⟩
  | step s s' _ _ ih =>
    obtain ⟨h1, new, h2, h3⟩ := ih
    refine ⟨h1, (splitFileBlock F s.buffer).1 :: new, ?_, ?_⟩
    · rw [h2]; simp [Orderer.emit]
    · rw [List.flatten_cons, h3]
      exact split_append F s.buffer

theorem flushLoop_exists {F : Nat} (hF : 0 < F) (s : Orderer) : ∃ s', Orderer.FlushLoop F s s' := by
  induction hn : s.buffer.length using Nat.strong_induction_on generalizing s with
  | _ n ih =>
    by_cases hb : s.buffer = []
    · exact ⟨s, .done s hb⟩
    · have h1 := split_ne_nil hF hb
      have h2 := congrArg List.length (split_append F s.buffer)
      have h3 := List.length_pos_of_ne_nil h1
      simp at h2
      obtain ⟨s', hs'⟩ := ih (s.emit F).buffer.length (by simp only [Orderer.emit]; omega) (s.emit F) rfl
      exact ⟨s', .step s s' hb hs'⟩

theorem flushLoop_det {F : Nat} {s a b : Orderer} (h1 : Orderer.FlushLoop F s a) (h2 : Orderer.FlushLoop F s b) : a = b := by
  induction h1 with
  | done s h =>
    cases h2 with
    | done _ _ => rfl
    | step _ _ hn _ => exact absurd h hn
  | step s s' h _ ih =>
    cases h2 with
    | done _ hn => exact absurd hn h
    | step _ _ _ h2 => exact ih h2

end OsmIo
