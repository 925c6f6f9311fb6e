import Verif.Props.InplaceFunction
/-
Property C82: what exactly is left behind by an exception.
-/
namespace C4

/-- A function that holds the target `t`. -/
def Spec.holds (w : World) (i cls : Nat) (t : Target) : Prop := w.objs[i]? = some (some ⟨cls, .fn t.kind, some t⟩)

/-- A function that has lost its target, but is not empty: every further use of it but assigning it to itself is undefined. -/
def Spec.Broken (w : World) (i : Nat) : Prop :=
  ifInvoke w i = .ub ∧ ifDelete w i = .ub ∧ ifAssignNull w i = .ub ∧ (∀ j mv th, j ≠ i → ifAssign w i j mv th = .ub) ∧ ∀ j cls mv th, ifClone w j i cls mv th = .ub

open Spec

theorem get_of {w : World} {i : Nat} {f : IFn} (h : w.objs[i]? = some (some f)) : w.get i = .ok f := by
  unfold World.get; rw [h]

theorem broken_of {w : World} {i cls k : Nat} (h : w.objs[i]? = some (some ⟨cls, .fn k, none⟩)) : Broken w i := by
  have hg := get_of h
  refine ⟨?_, ?_, ?_, ?_, ?_⟩
  · unfold ifInvoke; rw [hg, Res.ok_bind]
  · unfold ifDelete; rw [hg, Res.ok_bind]; rfl
  · unfold ifAssignNull; rw [hg, Res.ok_bind]; rfl
  · intro j mv th hj
    unfold ifAssign
    rw [hg, Res.ok_bind]
    unfold World.get
    split
    · rw [Res.ok_bind]
      split
      · rfl
      · rw [if_neg (by omega)]; rfl
    · rfl
  · intro j cls mv th
    unfold ifClone
    unfold World.free
    split
    · rw [Res.ok_bind, hg, Res.ok_bind]; rfl
    · rfl

/-- **C82**, an exception during an assignment: the old target is destroyed, the function says that it has a target of the type of the new one, and has none; the other function, the number of targets made, and all other
functions are as before. -/
theorem C82_throw_assign {w : World} {i j cls : Nat} {mv : Bool} {t u : Target} (hi : holds w i cls t) (hj : holds w j cls u) (hij : i ≠ j) :
    ∃ w', ifAssign w i j mv true = .ok w' ∧ Broken w' i ∧ ifBool w' i = .ok true ∧ w'.destroyed = t.id :: w.destroyed ∧ w'.next = w.next ∧ ∀ k, k ≠ i → w'.objs[k]? = w.objs[k]? := by
  unfold holds at hi hj
  have hlt : i < w.objs.length := by
    rcases Nat.lt_or_ge i w.objs.length with h | h
    · exact h
    · rw [List.getElem?_eq_none h] at hi; cases hi
  have e : ifAssign w i j mv true = .ok { (w.put i (some ⟨cls, .fn u.kind, none⟩)) with destroyed := t.id :: w.destroyed } := by
    unfold ifAssign
    rw [get_of hi, Res.ok_bind, get_of hj, Res.ok_bind]
    simp only [ne_eq, not_true, if_false, if_neg hij, ifDestruct, if_true, Res.ok_bind, ifProcess]
    rw [if_pos ⟨trivial, by simp⟩]
  have hset : (w.objs.set i (some ⟨cls, .fn u.kind, none⟩))[i]? = some (some ⟨cls, .fn u.kind, none⟩) := List.getElem?_set_self hlt
  refine ⟨_, e, broken_of hset, ?_, rfl, rfl, ?_⟩
  · unfold ifBool
    rw [get_of hset, Res.ok_bind]; simp
  · intro k hk
    exact List.getElem?_set_ne (by omega)

/-- **C82**, an exception during a swap: in the first move nothing has changed; in the second the first function is left without its target, which lives on in no function;
in the third the second function is left without target, and the first has the target of the second, which it treats as one of its old type. -/
theorem C82_throw_swap {w : World} {i j cls : Nat} {t u : Target} (hi : holds w i cls t) (hj : holds w j cls u) (hij : i ≠ j) :
    ifSwap w i j 1 = .ok w ∧
    (∃ w', ifSwap w i j 2 = .ok w' ∧ Broken w' i ∧ w'.destroyed = t.id :: w.destroyed ∧ w'.next = w.next + 1 ∧ ∀ k, k ≠ i → w'.objs[k]? = w.objs[k]?) ∧
    ∃ w', ifSwap w i j 3 = .ok w' ∧ Broken w' j ∧ w'.destroyed = u.id :: t.id :: w.destroyed ∧ w'.next = w.next + 2 ∧ (∀ k, k ≠ i → k ≠ j → w'.objs[k]? = w.objs[k]?) ∧
      ifInvoke w' i = (if u.kind = t.kind then .ok (some (t.kind, u.val)) else .ub) := by
  unfold holds at hi hj
  have lt : ∀ {k f}, w.objs[k]? = some (some f) → k < w.objs.length := by
    intro k f h
    rcases Nat.lt_or_ge k w.objs.length with h' | h'
    · exact h'
    · rw [List.getElem?_eq_none h'] at h; cases h
  have e : ∀ th, ifSwap w i j th = (if th = 1 then .ok w else if th = 2 then
        .ok { (w.put i (some ⟨cls, .fn t.kind, none⟩)) with next := w.next + 1, destroyed := t.id :: w.destroyed }
      else if th = 3 then .ok { ((w.put i (some ⟨cls, .fn t.kind, some ⟨w.next + 1, u.kind, u.val⟩⟩)).put j (some ⟨cls, .fn u.kind, none⟩)) with next := w.next + 2, destroyed := u.id :: t.id :: w.destroyed }
      else ifSwap w i j th) := by
    intro th
    by_cases h1 : th = 1
    · subst h1
      unfold ifSwap
      rw [get_of hi, Res.ok_bind, get_of hj, Res.ok_bind]
      simp only [ne_eq, not_true, if_false, if_neg hij, ifProcess, if_true, Res.ok_bind]
    · rw [if_neg h1]
      by_cases h2 : th = 2
      · subst h2
        unfold ifSwap
        rw [get_of hi, Res.ok_bind, get_of hj, Res.ok_bind]
        simp [hij, ifProcess, ifDestruct]
      · rw [if_neg h2]
        by_cases h3 : th = 3
        · subst h3
          unfold ifSwap
          rw [get_of hi, Res.ok_bind, get_of hj, Res.ok_bind]
          simp [hij, ifProcess, ifDestruct]
        · rw [if_neg h3]
  refine ⟨by rw [e, if_pos rfl], ⟨_, by rw [e, if_neg (by decide), if_pos rfl], ?_, rfl, rfl, ?_⟩, ⟨_, by rw [e, if_neg (by decide), if_neg (by decide), if_pos rfl], ?_, rfl, rfl, ?_, ?_⟩⟩
  · exact broken_of (List.getElem?_set_self (lt hi))
  · intro k hk; exact List.getElem?_set_ne (by omega)
  · exact broken_of (List.getElem?_set_self (by rw [World.put, List.length_set]; exact lt hj))
  · intro k hk hk'
    simp only [World.put]
    rw [List.getElem?_set_ne (by omega), List.getElem?_set_ne (by omega)]
  · unfold ifInvoke
    rw [get_of (f := ⟨cls, .fn t.kind, some ⟨w.next + 1, u.kind, u.val⟩⟩), Res.ok_bind]
    · simp only [World.put]
      rw [List.getElem?_set_ne (by omega), List.getElem?_set_self (lt hi)]

example : holds ⟨[some ⟨7, .fn 1, some ⟨0, 1, some 10⟩⟩, some ⟨7, .fn 2, some ⟨1, 2, some 20⟩⟩], 2, []⟩ 0 7 ⟨0, 1, some 10⟩ ∧
    ifAssign ⟨[some ⟨7, .fn 1, some ⟨0, 1, some 10⟩⟩, some ⟨7, .fn 2, some ⟨1, 2, some 20⟩⟩], 2, []⟩ 0 1 false true = .ok ⟨[some ⟨7, .fn 2, none⟩, some ⟨7, .fn 2, some ⟨1, 2, some 20⟩⟩], 2, [0]⟩ ∧
    ifSwap ⟨[some ⟨7, .fn 1, some ⟨0, 1, some 10⟩⟩, some ⟨7, .fn 2, some ⟨1, 2, some 20⟩⟩], 2, []⟩ 0 1 3 =
      .ok ⟨[some ⟨7, .fn 1, some ⟨3, 2, some 20⟩⟩, some ⟨7, .fn 2, none⟩], 4, [1, 0]⟩ := by
  refine ⟨rfl, ?_, ?_⟩ <;> decide

/-- **C82**, exceptions of constructors: the program has the functions it had. -/
theorem C82_throw_construct {w : World} {i cls kind val : Nat} (hi : w.objs[i]? = some none) : ifClosure w i cls kind val true = .ok w ∧
    ∀ j c mv t, holds w j c t → ifClone w i j cls mv true = .ok w := by
  have hf : w.free i = .ok () := by unfold World.free; rw [hi]
  refine ⟨by unfold ifClosure; rw [hf]; rfl, ?_⟩
  intro j c mv t hj
  unfold ifClone
  rw [hf, Res.ok_bind, get_of hj, Res.ok_bind]
  simp [ifProcess]

example : ifClone ⟨[some ⟨7, .fn 1, some ⟨0, 1, some 10⟩⟩, none], 1, []⟩ 1 0 7 true true = .ok ⟨[some ⟨7, .fn 1, some ⟨0, 1, some 10⟩⟩, none], 1, []⟩ := by decide

end C4
