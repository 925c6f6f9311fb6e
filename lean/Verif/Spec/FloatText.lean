import Verif.Spec.Decimal
/-
What a text that is read as a floating point number begins with.
-/
namespace C4.Spec

instance : DecidablePred IsDigit := fun _ => inferInstanceAs (Decidable (_ ∧ _))

/-- `s` is the number `t` and then `rest`, and no longer prefix of `s` is a number. -/
structure Longest (s : List Nat) (t : Decimal) (rest : List Nat) : Prop where
  wf : t.WF
  split : s = t.text ++ rest
  longest : ∀ u r, Decimal.WF u → s = u.text ++ r → rest.length ≤ r.length

/-- No prefix is a number. -/
def NoNumber (s : List Nat) : Prop := ∀ t r, Decimal.WF t → s ≠ t.text ++ r

/-- The letters of a word in lower case, each of them in any case. -/
def SameWord (s word : List Nat) : Prop := List.Forall₂ (fun c l => c = l ∨ c + 32 = l) s word

/-- "nan", "inf" and "inity". -/
def wordNan : List Nat := [110, 97, 110]
def wordInf : List Nat := [105, 110, 102]
def wordInity : List Nat := [105, 110, 105, 116, 121]

/-- A letter, a digit or '_'. -/
def IsNanChar (c : Nat) : Prop := (97 ≤ c ∧ c ≤ 122) ∨ (65 ≤ c ∧ c ≤ 90) ∨ (48 ≤ c ∧ c ≤ 57) ∨ c = 95

/-- The optional minus sign. -/
def minus (neg : Bool) : List Nat := if neg then [45] else []

end C4.Spec
