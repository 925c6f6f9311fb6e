import Verif.Props.Error
/-
C126 for programs with blocks: the settings that every statement finds.
-/
namespace C4
open Spec Err

/-- A program that changes settings: it ends, it is left (by an exception or a return), a setter is called, or there is a block with a
`ScopedErrorSettings` at its start, given a callback, flags, or both. -/
inductive Spec.Blocks where
  | done
  | leave
  | flags (f : Nat) (rest : Blocks)
  | callback (cb : Option Nat) (rest : Blocks)
  | inCallback (cb : Option Nat) (body rest : Blocks)
  | inFlags (f : Nat) (body rest : Blocks)
  | inBoth (f : Nat) (cb : Option Nat) (body rest : Blocks)

/-- The settings after every statement and end of a block, and whether the end is reached: those in a block are forgotten at its end. -/
def Spec.Blocks.seen : Blocks → Settings → List Settings × Bool
  | .done, _ => ([], true)
  | .leave, _ => ([], false)
  | .flags f rest, s => let r := rest.seen ⟨f, s.callback⟩; (⟨f, s.callback⟩ :: r.1, r.2)
  | .callback cb rest, s => let r := rest.seen ⟨s.flags, cb⟩; (⟨s.flags, cb⟩ :: r.1, r.2)
  | .inCallback cb body rest, s =>
    let b := body.seen ⟨s.flags, cb⟩
    let r := rest.seen s
    (⟨s.flags, cb⟩ :: b.1 ++ s :: (if b.2 then r.1 else []), b.2 && r.2)
  | .inFlags f body rest, s =>
    let b := body.seen ⟨f, s.callback⟩
    let r := rest.seen s
    (⟨f, s.callback⟩ :: b.1 ++ s :: (if b.2 then r.1 else []), b.2 && r.2)
  | .inBoth f cb body rest, s =>
    let b := body.seen ⟨f, cb⟩
    let r := rest.seen s
    (⟨f, cb⟩ :: b.1 ++ s :: (if b.2 then r.1 else []), b.2 && r.2)

/-- The statements that are executed, with the objects numbered by depth; leaving destroys the objects that are alive, the last first. -/
def Spec.Blocks.ops : Blocks → Nat → List Op × Bool
  | .done, _ => ([], true)
  | .leave, _ => ([], false)
  | .flags f rest, d => let r := rest.ops d; (.setFlags f :: r.1, r.2)
  | .callback cb rest, d => let r := rest.ops d; (.setCallback cb :: r.1, r.2)
  | .inCallback cb body rest, d =>
    let b := body.ops (d + 1)
    let r := rest.ops d
    (.scopeCallback d cb :: b.1 ++ .destroy d :: (if b.2 then r.1 else []), b.2 && r.2)
  | .inFlags f body rest, d =>
    let b := body.ops (d + 1)
    let r := rest.ops d
    (.scopeFlags d f :: b.1 ++ .destroy d :: (if b.2 then r.1 else []), b.2 && r.2)
  | .inBoth f cb body rest, d =>
    let b := body.ops (d + 1)
    let r := rest.ops d
    (.scopeBoth d f cb :: b.1 ++ .destroy d :: (if b.2 then r.1 else []), b.2 && r.2)

/-- The settings after each of some statements, and the last state. -/
def along : List Op → State → Res (List Settings × State)
  | [], st => .ok ([], st)
  | op :: l, st => step st op >>= fun s => along l s >>= fun r => .ok (s.now :: r.1, r.2)

theorem along_append (a b : List Op) : ∀ st, along (a ++ b) st = along a st >>= fun r => along b r.2 >>= fun q => .ok (r.1 ++ q.1, q.2) := by
  induction a with
  | nil => intro st; show along b st = along b st >>= fun q => .ok (q.1, q.2); cases along b st <;> rfl
  | cons op a ih =>
    intro st
    show (step st op >>= fun s => along (a ++ b) s >>= fun r => .ok (s.now :: r.1, r.2)) = (step st op >>= fun s => along a s >>= fun r => .ok (s.now :: r.1, r.2)) >>= _
    cases step st op with
    | ok s =>
      simp only [Res.ok_bind]
      rw [ih s]
      cases along a s with
      | ok r =>
        simp only [Res.ok_bind]
        cases along b r.2 <;> rfl
      | ub => rfl
      | abort => rfl
      | loop => rfl
    | ub => rfl
    | abort => rfl
    | loop => rfl

/-- The settings last seen. -/
def Spec.lastOf (s : Settings) (l : List Settings) : Settings := l.getLast?.getD s

theorem lastOf_cons (s x : Settings) (l : List Settings) : lastOf s (x :: l) = lastOf x l := by
  simp only [lastOf, List.getLast?_cons, Option.getD_some]

theorem lastOf_append (s : Settings) (l : List Settings) (x : Settings) (m : List Settings) : lastOf s (l ++ x :: m) = lastOf x m := by
  induction l generalizing s with
  | nil => exact lastOf_cons s x m
  | cons y l ih => rw [List.cons_append, lastOf_cons, ih]

/-- A block, given what its body and what follows do. -/
theorem along_block {d : Nat} {ctor : Op} {st : State} {after : Settings} {bo ro : List Op} {bs rs : List Settings} {x : Settings} {out : Bool}
    (hd : st.saved d = none)
    (hc : step st ctor = .ok ⟨after, Function.update st.saved d (some st.now)⟩)
    (hb : along bo ⟨after, Function.update st.saved d (some st.now)⟩ = .ok (bs, ⟨x, Function.update st.saved d (some st.now)⟩))
    (hr : along ro st = .ok (rs, ⟨lastOf st.now rs, st.saved⟩)) :
    along (ctor :: bo ++ .destroy d :: (if out then ro else [])) st =
      .ok (after :: bs ++ st.now :: (if out then rs else []), ⟨lastOf st.now (after :: bs ++ st.now :: (if out then rs else [])), st.saved⟩) := by
  have e : Function.update (Function.update st.saved d (some st.now)) d none = st.saved := by
    rw [Function.update_idem, ← hd, Function.update_eq_self]
  have hdes : step ⟨x, Function.update st.saved d (some st.now)⟩ (.destroy d) = .ok st := by
    simp only [step, Function.update_self, e]
  have hl : lastOf st.now (after :: bs ++ st.now :: (if out then rs else [])) = lastOf st.now (if out then rs else []) := lastOf_append _ (after :: bs) _ _
  rw [hl]
  show (step st ctor >>= fun s => along (bo ++ .destroy d :: (if out then ro else [])) s >>= fun r => .ok (s.now :: r.1, r.2)) = _
  rw [hc, Res.ok_bind, along_append, hb, Res.ok_bind]
  show ((step ⟨x, Function.update st.saved d (some st.now)⟩ (.destroy d) >>= fun s => along (if out then ro else []) s >>= fun r => .ok (s.now :: r.1, r.2)) >>= _) >>= _ = _
  rw [hdes, Res.ok_bind]
  cases out with
  | true => simp only [if_true, hr, Res.ok_bind]; rfl
  | false => simp [along, Res.ok_bind, lastOf]

/-- **C126** for programs with blocks, however they are left: every statement is defined and finds the settings of the innermost block, or
those set since; at the end of a block they are those before it; no object remains.  Missing: objects destroyed in another order, and copies. -/
theorem C126_blocks_partial (p : Blocks) : ∀ (d : Nat) (st : State), (∀ k, d ≤ k → st.saved k = none) →
    (p.ops d).2 = (p.seen st.now).2 ∧ along (p.ops d).1 st = .ok ((p.seen st.now).1, ⟨lastOf st.now (p.seen st.now).1, st.saved⟩) := by
  have up : ∀ {d : Nat} {st : State}, (∀ k, d ≤ k → st.saved k = none) → ∀ k, d + 1 ≤ k → Function.update st.saved d (some st.now) k = none :=
    fun {d st} h k hk => by rw [Function.update_of_ne (by omega)]; exact h k (by omega)
  induction p with
  | done => intro d st _; exact ⟨rfl, rfl⟩
  | leave => intro d st _; exact ⟨rfl, rfl⟩
  | flags f rest ih =>
    intro d st h
    obtain ⟨i1, i2⟩ := ih d { st with now := { st.now with flags := f } } h
    refine ⟨i1, ?_⟩
    show (along (rest.ops d).1 { st with now := { st.now with flags := f } } >>= fun r => .ok (_ :: r.1, r.2)) = _
    rw [i2, Res.ok_bind]
    simp only [Blocks.seen, lastOf_cons]
  | callback cb rest ih =>
    intro d st h
    obtain ⟨i1, i2⟩ := ih d { st with now := { st.now with callback := cb } } h
    refine ⟨i1, ?_⟩
    show (along (rest.ops d).1 { st with now := { st.now with callback := cb } } >>= fun r => .ok (_ :: r.1, r.2)) = _
    rw [i2, Res.ok_bind]
    simp only [Blocks.seen, lastOf_cons]
  | inCallback cb body rest ib ir =>
    intro d st h
    have hi : ¬ (st.saved d).isSome = true := by rw [h d (Nat.le_refl d)]; exact Bool.false_ne_true
    obtain ⟨b1, b2⟩ := ib (d + 1) ⟨⟨st.now.flags, cb⟩, Function.update st.saved d (some st.now)⟩ (up h)
    obtain ⟨r1, r2⟩ := ir d st h
    refine ⟨by simp only [Blocks.ops, Blocks.seen, b1, r1], ?_⟩
    simp only [Blocks.ops, Blocks.seen, b1]
    exact along_block (h d (Nat.le_refl d)) (if_neg hi) b2 r2
  | inFlags f body rest ib ir =>
    intro d st h
    have hi : ¬ (st.saved d).isSome = true := by rw [h d (Nat.le_refl d)]; exact Bool.false_ne_true
    obtain ⟨b1, b2⟩ := ib (d + 1) ⟨⟨f, st.now.callback⟩, Function.update st.saved d (some st.now)⟩ (up h)
    obtain ⟨r1, r2⟩ := ir d st h
    refine ⟨by simp only [Blocks.ops, Blocks.seen, b1, r1], ?_⟩
    simp only [Blocks.ops, Blocks.seen, b1]
    exact along_block (h d (Nat.le_refl d)) (if_neg hi) b2 r2
  | inBoth f cb body rest ib ir =>
    intro d st h
    have hi : ¬ (st.saved d).isSome = true := by rw [h d (Nat.le_refl d)]; exact Bool.false_ne_true
    obtain ⟨b1, b2⟩ := ib (d + 1) ⟨⟨f, cb⟩, Function.update st.saved d (some st.now)⟩ (up h)
    obtain ⟨r1, r2⟩ := ir d st h
    refine ⟨by simp only [Blocks.ops, Blocks.seen, b1, r1], ?_⟩
    simp only [Blocks.ops, Blocks.seen, b1]
    exact along_block (h d (Nat.le_refl d)) (if_neg hi) b2 r2

/-- A block in which the callback is set, with an inner block that is left early. -/
example : (Blocks.inFlags 4 (.callback (some 7) (.inBoth 2 none (.flags 1 .leave) (.flags 9 .done))) (.flags 3 .done)).seen ⟨15, none⟩ =
    ([⟨4, none⟩, ⟨4, some 7⟩, ⟨2, none⟩, ⟨1, none⟩, ⟨4, some 7⟩, ⟨15, none⟩], false) := by decide
example : ∀ k, 0 ≤ k → (State.mk ⟨15, none⟩ fun _ => none).saved k = none := fun _ _ => rfl

end C4
