import Verif.Spec.Writer
import Verif.Spec.Search
/-
Specification of formatted output: the contract of an argument writer, separated texts, substitution in a format string.
-/
namespace C4.Spec

/-- `f` is a bounded writer of `t`: whatever the buffer, it returns the length of `t`, keeps within the buffer, and if the text
fits the buffer then starts with it and goes on unchanged. -/
def Writes (f : List Nat → Res (Nat × List Nat)) (t : List Nat) : Prop :=
  ∀ buf, ∃ b, f buf = .ok (t.length, b) ∧ b.length = buf.length ∧ (t.length ≤ buf.length → b = overwrite t buf)

/-- The texts with a separator between consecutive ones. -/
def separated (sep : List Nat) : List (List Nat) → List Nat
  | [] => []
  | [a] => a
  | a :: b :: r => a ++ sep ++ separated sep (b :: r)

/-- The two characters `{}`. -/
def mark : List Nat := [123, 125]

/-- `out` is the format string with the arguments substituted for the marks from left to right; surplus marks stay, surplus
arguments are ignored. -/
inductive Subst : List Nat → List (List Nat) → List Nat → Prop
  | noargs {fmt} : Subst fmt [] fmt
  | nomark {fmt args} : (∀ i, ¬ OccursAt fmt mark i) → Subst fmt args fmt
  | step {pre post a args out} : (∀ i, i < pre.length → ¬ OccursAt (pre ++ mark ++ post) mark i) →
      Subst post args out → Subst (pre ++ mark ++ post) (a :: args) (pre ++ a ++ out)

/-- The same, every argument having its mark. -/
inductive Filled : List Nat → List (List Nat) → List Nat → Prop
  | noargs {fmt} : Filled fmt [] fmt
  | step {pre post a args out} : (∀ i, i < pre.length → ¬ OccursAt (pre ++ mark ++ post) mark i) →
      Filled post args out → Filled (pre ++ mark ++ post) (a :: args) (pre ++ a ++ out)

theorem Filled.subst {fmt : List Nat} {args : List (List Nat)} {out : List Nat} (h : Filled fmt args out) : Subst fmt args out := by
  induction h with
  | noargs => exact .noargs
  | step h _ ih => exact .step h ih

theorem occurs_pre (pre post : List Nat) : OccursAt (pre ++ mark ++ post) mark pre.length := ⟨pre, post, rfl, rfl⟩

/-- The position of the first mark is determined. -/
theorem split_unique {pre post pre' post' : List Nat} (e : pre ++ mark ++ post = pre' ++ mark ++ post')
    (h : ∀ i, i < pre.length → ¬ OccursAt (pre ++ mark ++ post) mark i)
    (h' : ∀ i, i < pre'.length → ¬ OccursAt (pre' ++ mark ++ post') mark i) : pre = pre' ∧ post = post' := by
  have hl : pre.length = pre'.length := by
    rcases Nat.lt_trichotomy pre.length pre'.length with g | g | g
    · exact absurd (e ▸ occurs_pre pre post) (h' _ g)
    · exact g
    · exact absurd (e ▸ occurs_pre pre' post') (h _ g)
  rw [List.append_assoc, List.append_assoc] at e
  obtain ⟨h1, h2⟩ := List.append_inj e hl
  exact ⟨h1, List.append_cancel_left h2⟩

/-- Substitution has at most one result. -/
theorem Subst.unique {fmt : List Nat} {args : List (List Nat)} {o : List Nat} (h : Subst fmt args o) :
    ∀ {o'}, Subst fmt args o' → o = o' := by
  induction h with
  | noargs => intro o' h'; cases h' <;> rfl
  | nomark h =>
    intro o' h'
    cases h' with
    | noargs => rfl
    | nomark _ => rfl
    | step _ _ => exact absurd (occurs_pre _ _) (h _)
  | @step pre post a args out hpre hs ih =>
    intro o' h'
    generalize e : pre ++ mark ++ post = f at h'
    generalize e2 : a :: args = as at h'
    cases h' with
    | noargs => cases e2
    | nomark g => exact absurd (e ▸ occurs_pre pre post) (g _)
    | @step pre' post' a' args' out' hpre' hs' =>
      obtain ⟨rfl, rfl⟩ := List.cons.inj e2
      obtain ⟨rfl, rfl⟩ := split_unique e hpre hpre'
      rw [ih hs']

end C4.Spec
