import Verif.Spec.Accumulators
import Verif.Model.Pool
import Mathlib.Data.List.Induction
import Mathlib.Data.Fintype.Basic
/-!
# C102: thread local accumulators do not disturb each other
-/
namespace OsmIo
open Spec

variable {θ α : Type} [DecidableEq θ] [DecidableEq α]

/-- What is in a map under an id; a missing entry is an empty one. -/
def accContent (m : AccMap) (id : String) : List Element := (m.lookup id).getD []

theorem lookup_map_if (m : AccMap) (id id' : String) (f : List Element → List Element) :
    (m.map fun p => if p.1 = id then (p.1, f p.2) else p).lookup id' = (m.lookup id').map (fun es => if id' = id then f es else es) := by
  induction m with
  | nil => rfl
  | cons p m ih =>
    obtain ⟨k, v⟩ := p
    by_cases h : k = id'
    · subst h
      by_cases h2 : k = id <;> simp [h2]
    · have hb : (id' == k) = false := by simpa using fun e => h e.symm
      by_cases h2 : k = id
      · subst h2
        simp only [List.map_cons, if_true, List.lookup_cons, hb, ih]
      · simp only [List.map_cons, h2, if_false, List.lookup_cons, hb, ih]

theorem add_content (m : AccMap) (id id' : String) (e : Element) :
    accContent (TlAccumulator.add ⟨id⟩ e m) id' = if id' = id then accContent m id' ++ [e] else accContent m id' := by
  unfold accContent TlAccumulator.add
  cases h : m.lookup id with
  | none =>
    by_cases h2 : id' = id
    · subst h2; simp [h]
    · have hb : (id' == id) = false := by simpa using h2
      simp [List.lookup_cons, hb, h2]
  | some es =>
    simp only
    rw [lookup_map_if m id id' (· ++ [e])]
    by_cases h2 : id' = id
    · subst h2; simp [h]
    · simp [h2]

theorem elements_content (m : AccMap) (id id' : String) :
    (TlAccumulator.elements ⟨id⟩ m).1 = accContent m id ∧
    accContent (TlAccumulator.elements ⟨id⟩ m).2 id' = if id' = id then [] else accContent m id' := by
  unfold accContent TlAccumulator.elements
  cases h : m.lookup id with
  | none =>
    refine ⟨rfl, ?_⟩
    by_cases h2 : id' = id
    · subst h2; simp [h]
    · simp [h2]
  | some es =>
    refine ⟨rfl, ?_⟩
    simp only
    rw [lookup_map_if m id id' (fun _ => [])]
    by_cases h2 : id' = id
    · subst h2; simp [h]
    · simp [h2]

theorem len_content (m : AccMap) (id : String) : TlAccumulator.len ⟨id⟩ m = (accContent m id).length := by
  unfold accContent TlAccumulator.len
  cases m.lookup id <;> rfl

theorem accRun_from (ids : α → String) (hi : Function.Injective ids) (maps : θ → AccMap) (before calls : List (θ × α × AccCall))
    (h : ∀ t a, accContent (maps t) (ids a) = waiting t a before.reverse) :
    (accRun ids maps calls).length = calls.length ∧
    ∀ (k : Nat) x, calls[k]? = some x → (accRun ids maps calls)[k]? = some (answer (before ++ calls.take k).reverse x) := by
  induction calls generalizing maps before with
  | nil => exact ⟨rfl, fun k x hx => by simp at hx⟩
  | cons c calls ih =>
    obtain ⟨t, a, c⟩ := c
    have h' : ∀ u b, accContent ((fun u => if u = t then ((⟨ids a⟩ : TlAccumulator).call (maps t) c).2 else maps u) u) (ids b) =
        waiting u b (before ++ [(t, a, c)]).reverse := by
      intro u b
      simp only [List.reverse_append, List.reverse_cons, List.reverse_nil, List.nil_append, List.cons_append, waiting]
      by_cases hu : u = t
      · subst hu
        have hab : ids b = ids a ↔ a = b := ⟨fun e => (hi e).symm, fun e => by rw [e]⟩
        cases c with
        | add e => simp only [TlAccumulator.call, if_true, add_content, hab, true_and, h]
        | elements => simp only [TlAccumulator.call, if_true, (elements_content _ _ _).2, hab, true_and, h]
        | len => simp only [TlAccumulator.call, h, ite_self]
      · have : ¬ (t = u ∧ a = b) := fun e => hu e.1.symm
        simp only [hu, if_false, this, h]
    obtain ⟨h1, h2⟩ := ih _ (before ++ [(t, a, c)]) h'
    refine ⟨by simp [accRun, h1], fun k x hx => ?_⟩
    cases k with
    | zero =>
      simp only [List.getElem?_cons_zero, Option.some.injEq] at hx
      subst hx
      simp only [accRun, List.getElem?_cons_zero, List.take_zero, List.append_nil, Option.some.injEq]
      cases c with
      | add e => rfl
      | elements => simp only [TlAccumulator.call, (elements_content _ _ "").1, h, answer]
      | len => simp only [TlAccumulator.call, len_content, h, answer]
    | succ k =>
      simp only [List.getElem?_cons_succ] at hx
      simp only [accRun, List.getElem?_cons_succ, List.take_succ_cons]
      rw [h2 k x hx]
      simp

/-- C102. Whatever threads call whatever accumulators in whatever order: every call returns what it has to, going by the calls of the same
thread on the same accumulator alone. `elements` returns what that thread has added to that accumulator since its last `elements`, in order. -/
theorem C102_calls (ids : α → String) (hi : Function.Injective ids) (calls : List (θ × α × AccCall)) :
    (accRun ids (fun _ => []) calls).length = calls.length ∧
    ∀ (k : Nat) x, calls[k]? = some x → (accRun ids (fun _ => []) calls)[k]? = some (answer (calls.take k).reverse x) := by
  have := accRun_from (θ := θ) ids hi (fun _ => []) [] calls fun t a => rfl
  simpa using this

theorem waiting_append_taken (calls : List (θ × α × AccCall)) (results : List AccResult) (hl : results.length = calls.length)
    (h : ∀ (k : Nat) x, calls[k]? = some x → results[k]? = some (answer (calls.take k).reverse x)) (t : θ) (a : α) :
    added t a calls = taken t a calls results ++ waiting t a calls.reverse := by
  induction calls using List.reverseRecOn generalizing results with
  | nil => simp [added, taken, waiting]
  | append_singleton calls c ih =>
    obtain ⟨rs, r, rfl⟩ : ∃ rs r, results = rs ++ [r] := by
      rcases List.eq_nil_or_concat results with rfl | ⟨rs, r, rfl⟩
      · simp at hl
      · exact ⟨rs, r, by simp⟩
    have hl' : rs.length = calls.length := by simpa using hl
    have ih := ih rs hl' (by
      intro k x hx
      have hk : k < calls.length := (List.getElem?_eq_some_iff.1 hx).1
      have := h k x (by rw [List.getElem?_append_left hk]; exact hx)
      rw [List.getElem?_append_left (by omega)] at this
      rw [this, List.take_append_of_le_length (by omega)])
    have hr : r = answer calls.reverse c := by
      have := h calls.length c (by simp)
      rw [← hl'] at this
      simp only [List.getElem?_append_right (Nat.le_refl _), Nat.sub_self, List.getElem?_cons_zero, Option.some.injEq] at this
      rw [this, hl']; simp
    have ha : added t a (calls ++ [c]) = added t a calls ++ added t a [c] := by simp [added]
    have ht : taken t a (calls ++ [c]) (rs ++ [r]) = taken t a calls rs ++ taken t a [c] [r] := by
      unfold taken; rw [List.zip_append hl'.symm, List.flatMap_append]
    rw [ha, ht, ih, hr]
    obtain ⟨u, b, c⟩ := c
    simp only [List.reverse_append, List.reverse_cons, List.reverse_nil, List.nil_append, List.cons_append, waiting]
    by_cases hub : u = t ∧ b = a
    · obtain ⟨rfl, rfl⟩ := hub
      cases c <;> simp [added, taken, answer]
    · cases c <;> simp [added, taken, answer, hub]

/-- C102. Nothing is lost, repeated, reordered or mixed up: what a thread has added to an accumulator is what it has got back from it followed by
what is still waiting. -/
theorem C102_nothing_lost (ids : α → String) (hi : Function.Injective ids) (calls : List (θ × α × AccCall)) (t : θ) (a : α) :
    added t a calls = taken t a calls (accRun ids (fun _ => []) calls) ++ waiting t a calls.reverse :=
  waiting_append_taken calls _ (C102_calls ids hi calls).1 (C102_calls ids hi calls).2 t a

/-- C102. Another thread gets nothing of it: if a thread has never added to an accumulator, `elements` gives it nothing. -/
theorem C102_other_thread (ids : α → String) (hi : Function.Injective ids) (before after : List (θ × α × AccCall)) (t : θ) (a : α)
    (h : added t a before = []) :
    (accRun ids (fun _ => []) (before ++ (t, a, .elements) :: after))[before.length]? = some (.elements []) := by
  rw [(C102_calls ids hi _).2 before.length (t, a, .elements) (by simp)]
  have := C102_nothing_lost ids hi before t a
  rw [h] at this
  have := (List.append_eq_nil_iff.1 this.symm).2
  simp [answer, this]

omit [DecidableEq α] in
/-- C102. If two accumulators had the same id, they would get each other's elements. -/
theorem C102_same_id (ids : α → String) (t : θ) (a b : α) (h : ids a = ids b) (e : Element) :
    accRun ids (fun _ => []) [(t, a, .add e), (t, b, .elements)] = [.unit, .elements [e]] := by
  simp [accRun, TlAccumulator.call, TlAccumulator.add, TlAccumulator.elements, h]

/-- The calls on accumulator `a` alone, on the state `TlState` in which one accumulator is modelled for C28, C51 and C70. -/
def tlStep {T : Nat} (a : α) (s : TlState T) : Fin T × α × AccCall → TlState T
  | (i, b, .add e) => if b = a then s.add i e else s
  | (i, b, .elements) => if b = a then s.elements i else s
  | (_, _, .len) => s

/-- The batches that `elements` on `a` returned to any thread, in the order of the calls. -/
def handedOut {T : Nat} (a : α) (calls : List (Fin T × α × AccCall)) (results : List AccResult) : List (List Element) :=
  (calls.zip results).filterMap fun | ((_, b, .elements), .elements es) => if b = a then some es else none | _ => none

/-- C102. So the model of a single accumulator used for C28, C51 and C70 is right whatever else is accumulated in the process: the batches and
the contents are those of the accumulator in the shared maps. -/
theorem C102_single {T : Nat} (ids : α → String) (hi : Function.Injective ids) (calls : List (Fin T × α × AccCall)) (a : α) :
    (calls.foldl (tlStep a) ⟨fun _ => [], []⟩).batches = handedOut a calls (accRun ids (fun _ => []) calls) ∧
    ∀ i, (calls.foldl (tlStep a) ⟨fun _ => [], []⟩).acc i = waiting i a calls.reverse := by
  have key : ∀ (results : List AccResult), results.length = calls.length →
      (∀ (k : Nat) x, calls[k]? = some x → results[k]? = some (answer (calls.take k).reverse x)) →
      (calls.foldl (tlStep a) ⟨fun _ => [], []⟩).batches = handedOut a calls results ∧
      ∀ i, (calls.foldl (tlStep a) ⟨fun _ => [], []⟩).acc i = waiting i a calls.reverse := by
    induction calls using List.reverseRecOn with
    | nil => intro _ _ _; exact ⟨rfl, fun _ => rfl⟩
    | append_singleton calls c ih =>
      intro results hl h
      obtain ⟨rs, r, rfl⟩ : ∃ rs r, results = rs ++ [r] := by
        rcases List.eq_nil_or_concat results with rfl | ⟨rs, r, rfl⟩
        · simp at hl
        · exact ⟨rs, r, by simp⟩
      have hl' : rs.length = calls.length := by simpa using hl
      obtain ⟨ih1, ih2⟩ := ih rs hl' (by
        intro k x hx
        have hk : k < calls.length := (List.getElem?_eq_some_iff.1 hx).1
        have := h k x (by rw [List.getElem?_append_left hk]; exact hx)
        rw [List.getElem?_append_left (by omega)] at this
        rw [this, List.take_append_of_le_length (by omega)])
      have hr : r = answer calls.reverse c := by
        have := h calls.length c (by simp)
        rw [← hl'] at this
        simp only [List.getElem?_append_right (Nat.le_refl _), Nat.sub_self, List.getElem?_cons_zero, Option.some.injEq] at this
        rw [this, hl']; simp
      have ht : handedOut a (calls ++ [c]) (rs ++ [r]) = handedOut a calls rs ++ handedOut a [c] [r] := by
        unfold handedOut; rw [List.zip_append hl'.symm, List.filterMap_append]
      rw [List.foldl_append, List.foldl_cons, List.foldl_nil, ht, ← ih1, hr]
      simp only [List.reverse_append, List.reverse_cons, List.reverse_nil, List.nil_append, List.cons_append]
      obtain ⟨u, b, c⟩ := c
      by_cases hb : b = a
      · subst hb
        cases c with
        | add e =>
          refine ⟨by simp [tlStep, TlState.add, handedOut], fun i => ?_⟩
          by_cases hui : u = i
          · subst hui; simp [tlStep, TlState.add, waiting, ih2]
          · simp [tlStep, TlState.add, waiting, ih2, hui, Function.update_of_ne (Ne.symm hui)]
        | elements =>
          refine ⟨by simp [tlStep, TlState.elements, handedOut, answer, ih2], fun i => ?_⟩
          by_cases hui : u = i
          · subst hui; simp [tlStep, TlState.elements, waiting]
          · simp [tlStep, TlState.elements, waiting, ih2, hui, Function.update_of_ne (Ne.symm hui)]
        | len => exact ⟨by simp [tlStep, handedOut], fun i => by simp [tlStep, waiting, ih2]⟩
      · cases c <;> exact ⟨by simp [tlStep, handedOut, answer, hb], fun i => by simp [tlStep, waiting, hb, ih2]⟩
  exact key _ (C102_calls ids hi calls).1 (C102_calls ids hi calls).2

/-- Two threads and two accumulators. -/
def exAccCalls : List (Bool × Bool × AccCall) :=
  [(true, true, .add .sentinel), (true, false, .add (.node ⟨1, 1, ⟨0, 0⟩, 0, 0, 0, "", true, []⟩)), (false, true, .elements), (true, true, .add .sentinel),
   (true, true, .len), (true, true, .elements), (true, true, .elements), (true, false, .elements)]

example : Function.Injective (fun b : Bool => if b then "x" else "y") ∧
    accRun (fun b : Bool => if b then "x" else "y") (fun _ => []) exAccCalls =
      [.unit, .unit, .elements [], .unit, .len 2, .elements [.sentinel, .sentinel], .elements [],
       .elements [.node ⟨1, 1, ⟨0, 0⟩, 0, 0, 0, "", true, []⟩]] :=
  ⟨by intro a b; cases a <;> cases b <;> simp, by decide +kernel⟩

example : added false true exAccCalls = [] ∧ added true true exAccCalls = [.sentinel, .sentinel] := by decide +kernel

end OsmIo
