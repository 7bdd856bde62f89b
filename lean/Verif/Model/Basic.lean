/-!
# Outcomes and bytes

Rust functions of the crate end in one of three ways: a value, an `Err(anyhow::Error)`, or a panic.
The model keeps the three apart (messages are dropped).
-/
namespace OsmIo

/-- A byte string (`Vec<u8>`, `&[u8]`, contents of a file). (e.g. `src/osm/pbf/blob_desc.rs:1-41`) -/
abbrev Bytes := List UInt8

/-- Outcome of a Rust call: `Ok(a)` (or a plain value), `Err(_)`, or a panic.
(outcomes of all functions of `src/`, e.g. `src/osm/pbf/file_block.rs:98-130`) -/
inductive Out (α : Type) where
  | ok (a : α)
  | err
  | panic
  deriving DecidableEq, Repr

namespace Out

/-- `?` and sequencing: the first `Err` or panic ends the computation (all functions of `src/`, e.g. `src/osm/pbf/file_block.rs:98-130`). -/
def bind {α β : Type} (x : Out α) (f : α → Out β) : Out β :=
  match x with
  | ok a => f a
  | err => err
  | panic => panic

instance : Monad Out where
  pure := ok
  bind := bind

@[simp] theorem pure_eq {α : Type} (a : α) : (pure a : Out α) = ok a := rfl
@[simp] theorem ok_bind {α β : Type} (a : α) (f : α → Out β) : (ok a >>= f) = f a := rfl
@[simp] theorem err_bind {α β : Type} (f : α → Out β) : ((err : Out α) >>= f) = err := rfl
@[simp] theorem panic_bind {α β : Type} (f : α → Out β) : ((panic : Out α) >>= f) = panic := rfl

@[simp] theorem map_ok {α β : Type} (f : α → β) (a : α) : (f <$> (ok a : Out α)) = ok (f a) := rfl
@[simp] theorem map_err {α β : Type} (f : α → β) : (f <$> (err : Out α)) = err := rfl
@[simp] theorem map_panic {α β : Type} (f : α → β) : (f <$> (panic : Out α)) = panic := rfl

theorem bind_eq_ok {α β : Type} {x : Out α} {f : α → Out β} {b : β} :
    (x >>= f) = ok b ↔ ∃ a, x = ok a ∧ f a = ok b := by
  cases x <;> simp

instance : LawfulMonad Out := LawfulMonad.mk'
  (id_map := by intro α x; cases x <;> rfl)
  (pure_bind := by intros; rfl)
  (bind_assoc := by intro α β γ x f g; cases x <;> rfl)

/-- `x?` / `x.unwrap()` on an `Option`: a panic when absent.
(outcomes of all functions of `src/`, e.g. `src/osm/pbf/file_block.rs:98-130`) -/
def unwrap {α : Type} : Option α → Out α
  | some a => ok a
  | none => panic

/-- `Option` turned into a `Result` (`ok_or(..)?`).
(outcomes of all functions of `src/`, e.g. `src/osm/pbf/file_block.rs:98-130`) -/
def orErr {α : Type} : Option α → Out α
  | some a => ok a
  | none => err

@[simp] theorem unwrap_some {α : Type} (a : α) : unwrap (some a) = ok a := rfl
@[simp] theorem unwrap_none {α : Type} : unwrap (none : Option α) = panic := rfl
@[simp] theorem orErr_some {α : Type} (a : α) : orErr (some a) = ok a := rfl
@[simp] theorem orErr_none {α : Type} : orErr (none : Option α) = err := rfl

end Out
end OsmIo
