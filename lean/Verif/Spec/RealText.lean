import Verif.Spec.Format
/-
Specification of writers that need not know the size of their text: those of real numbers.
-/
namespace C4.Spec

/-- `f` is a bounded writer of `t` which, into a buffer with `K` characters more than the text has, writes the text and returns its length.  Into a smaller one it may
write it as well; if it does not, it returns a size which is larger than the buffer. -/
def WritesRoom (K : Nat) (f : List Nat → Res (Nat × List Nat)) (t : List Nat) : Prop :=
  ∀ buf, ∃ n b, f buf = .ok (n, b) ∧ b.length = buf.length ∧ (t.length + K ≤ buf.length → n = t.length) ∧ (n ≤ buf.length → n = t.length ∧ t <+: b)

end C4.Spec
