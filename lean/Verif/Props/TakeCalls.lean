import Verif.Spec.TakeCalls
import Verif.Props.Box
/-! # C103: taking the user and the tags out of an element -/
namespace OsmIo
open Spec.Take

theorem takeCall_fields (e : Element) (user : String) (tags : List Tag) (h : fields e = some (user, tags)) (c : TakeCall) :
    e.takeCall c = ([answerTo user tags [] c], withFields e (if c = .takeUser then "" else user) (if c = .takeTags then [] else tags)) := by
  cases e <;> simp only [fields, Option.some.injEq, Prod.mk.injEq, reduceCtorEq] at h <;> obtain ⟨rfl, rfl⟩ := h <;> cases c <;> rfl

theorem fields_with (e : Element) (user user' : String) (tags tags' : List Tag) (x : String × List Tag) (h : fields e = some x) :
    fields (withFields e user tags) = some (user, tags) ∧ withFields (withFields e user tags) user' tags' = withFields e user' tags' := by
  cases e <;> simp_all [fields, withFields]

/-- C103. Whatever calls are made on an element, each answer is what the element had at first unless it was taken out before; and afterwards the element is the same
in all other fields, and the two fields are empty exactly if taken out. -/
theorem C103_calls (e : Element) (user : String) (tags : List Tag) (h : fields e = some (user, tags)) (cs : List TakeCall) :
    (e.takeCalls cs).2 = withFields e (if .takeUser ∈ cs then "" else user) (if .takeTags ∈ cs then [] else tags) ∧
    (e.takeCalls cs).1.length = cs.length ∧
    ∀ i c, cs[i]? = some c → (e.takeCalls cs).1[i]? = some (answerTo user tags (cs.take i) c) := by
  induction cs generalizing e user tags with
  | nil =>
    refine ⟨?_, rfl, by simp⟩
    cases e <;> simp only [fields, Option.some.injEq, Prod.mk.injEq, reduceCtorEq] at h <;> obtain ⟨rfl, rfl⟩ := h <;> rfl
  | cons c cs ih =>
    have hc := takeCall_fields e user tags h c
    obtain ⟨h1, h2⟩ := fields_with e (if c = .takeUser then "" else user) "" (if c = .takeTags then [] else tags) [] _ h
    obtain ⟨g1, g2, g3⟩ := ih _ _ _ h1
    simp only [Element.takeCalls, hc]
    refine ⟨?_, by simp [g2], ?_⟩
    · rw [g1, (fields_with e _ _ _ _ _ h).2]
      congr 1
      · cases c <;> simp
      · cases c <;> simp
    · intro i d hd
      cases i with
      | zero =>
        simp only [List.getElem?_cons_zero, Option.some.injEq] at hd
        subst hd
        rfl
      | succ i =>
        rw [List.getElem?_cons_succ] at hd
        have := g3 i d hd
        simp only [List.singleton_append, List.getElem?_cons_succ, List.take_succ_cons, this, Option.some.injEq]
        cases d <;> cases c <;> simp [answerTo]

/-- C103. Taking things out changes neither the order nor the equality of elements, and a `Sentinel` stays what it is. -/
theorem C103_order (e x : Element) (cs : List TakeCall) :
    (e.takeCalls cs).2.cmp x = e.cmp x ∧ x.cmp (e.takeCalls cs).2 = x.cmp e ∧ (e.takeCalls cs).2.beq x = e.beq x ∧
    (e.takeCalls cs).2.beq e = true ∧ (e.takeCalls cs).2.sameType e = true ∧ (Element.sentinel.takeCalls cs) = ([], .sentinel) := by
  have hs : ∀ cs : List TakeCall, Element.sentinel.takeCalls cs = ([], .sentinel) := by
    intro cs
    induction cs with
    | nil => rfl
    | cons c cs ih => simp [Element.takeCalls, Element.takeCall, ih]
  cases hf : fields e with
  | none =>
    cases e <;> simp only [fields, reduceCtorEq] at hf
    rw [hs]
    exact ⟨rfl, rfl, rfl, rfl, rfl, rfl⟩
  | some p =>
    rw [(C103_calls e p.1 p.2 hf cs).1]
    refine ⟨?_, ?_, ?_, ?_, ?_, hs cs⟩
    all_goals cases e <;> first | (cases x <;> rfl) | (simp [withFields, Element.beq, Element.sameType])

/-- A node whose user and tags are taken out twice. -/
example : (Element.node ⟨1, 2, ⟨0, 0⟩, 3, 4, 5, "me", true, [⟨"a", "b"⟩]⟩).takeCalls [.takeTags, .user, .tags, .takeUser, .takeUser, .takeTags] =
    ([.tags [⟨"a", "b"⟩], .user "me", .tags [], .user "me", .user "", .tags []], .node ⟨1, 2, ⟨0, 0⟩, 3, 4, 5, "", true, []⟩) := by decide +kernel

end OsmIo
