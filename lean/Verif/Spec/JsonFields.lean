import Verif.Spec.Json

/-! How Go's `encoding/json` fills the fields of a struct: by name, the exact one or else the first that is equal up to case; null changes nothing;
the last value counts. -/

namespace Verif.Spec.JsonFields
open Verif Verif.Spec

/-- A member named `k` belongs to the field `name`, one of `names` in this order. -/
def Mine (fold : Bytes → Bytes → Bool) (names : List Bytes) (name k : Bytes) : Prop :=
  k = name ∨ (k ∉ names ∧ ∃ before after, names = before ++ name :: after ∧ fold k name = true ∧ ∀ n ∈ before, fold k n = false)

/-- The field has the value `x` after reading the members `l`: all members that belong to it are null or readable; `x` is the value of the last one that is
not null, or else what was there before. -/
def FieldIs {α : Type} (mine : Bytes → Prop) (reads : Json → α → Prop) (before : α) (l : List (Bytes × Json)) (x : α) : Prop :=
  (∀ m ∈ l, mine m.1 → m.2 = .null ∨ ∃ y, reads m.2 y) ∧
  ((x = before ∧ ∀ m ∈ l, mine m.1 → m.2 = .null) ∨
    ∃ l1 k v l2, l = l1 ++ (k, v) :: l2 ∧ mine k ∧ reads v x ∧ ∀ m ∈ l2, mine m.1 → m.2 = .null)

/-- A text field. -/
def ReadsText (v : Json) (s : Bytes) : Prop := v = .str s

/-- A field for unsigned numbers of so many bits: decimal digits only, and the number fits. -/
def ReadsNat (bits : Nat) (v : Json) (n : Nat) : Prop :=
  ∃ t, v = .num t ∧ (t ≠ [] ∧ ∀ d ∈ t, 0x30 ≤ d.toNat ∧ d.toNat ≤ 0x39) ∧ decValue t = n ∧ n < 2 ^ bits

end Verif.Spec.JsonFields
