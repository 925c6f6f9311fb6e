import Verif.Basic
import Verif.Spec.Numeral
/-
What reporting an error means.
-/
namespace C4.Spec

/-- The message as far as it is kept: 1023 characters. -/
def keptMessage (t : List Nat) : List Nat := t.take 1023

/-- The message as a string: up to the first zero. -/
def stringMessage (t : List Nat) : List Nat := (keptMessage t).takeWhile (· ≠ 0)

/-- The log has the line "kind: message", with the place before it if there is one. -/
def Shows (kind msg : List Nat) (place : Option (List Nat × Nat)) (log : List Nat) : Prop :=
  let before := match place with
    | none => []
    | some (file, line) => file ++ S ":" ++ numeralText 10 line ++ S ": "
  S "\n" ++ before ++ kind ++ S ": " ++ msg ++ S "\n" <+: log

end C4.Spec
