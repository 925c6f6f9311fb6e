import Verif.InplaceFunction
/-
Properties C82 and C98: inplace_function.
-/
namespace C4

/-- A function as its users see it: its class, and its target (type, and value unless it was moved from) if it is not empty. -/
structure Spec.AFn where
  cls : Nat
  tgt : Option (Nat × Option Nat)
deriving DecidableEq, Repr

/-- What a target is after it was moved from. -/
def Spec.AFn.movedFrom (o : Spec.AFn) : Spec.AFn := ⟨o.cls, o.tgt.map fun p => (p.1, none)⟩

open Spec

/-- What each operation is meant to do; `none`: the program is wrong (it uses a variable without a function, constructs one
where there is one, or mixes classes). -/
def Spec.absStep (a : List (Option AFn)) : IOp → Option (List (Option AFn))
  | .create i cls => if a[i]? = some none then some (a.set i (some ⟨cls, none⟩)) else none
  | .closure i cls kind val throws =>
    if a[i]? = some none then some (if throws then a else a.set i (some ⟨cls, some (kind, some val)⟩)) else none
  | .clone i j cls mv throws =>
    match a[i]?, a[j]? with
    | some none, some (some o) =>
      if throws ∧ o.tgt ≠ none then some a
      else some ((a.set j (some (if mv then o.movedFrom else o))).set i (some ⟨cls, o.tgt⟩))
    | _, _ => none
  | .assignNull i =>
    match a[i]? with
    | some (some f) => some (a.set i (some ⟨f.cls, none⟩))
    | _ => none
  | .assign i j mv _ =>
    match a[i]?, a[j]? with
    | some (some f), some (some o) =>
      if f.cls ≠ o.cls then none
      else if i = j then some a
      else some ((a.set j (some (if mv then o.movedFrom else o))).set i (some ⟨f.cls, o.tgt⟩))
    | _, _ => none
  | .swap i j _ =>
    match a[i]?, a[j]? with
    | some (some f), some (some o) => if f.cls ≠ o.cls then none else some ((a.set i (some o)).set j (some f))
    | _, _ => none
  | .delete i =>
    match a[i]? with
    | some (some _) => some (a.set i none)
    | _ => none

def Spec.absRun (a : List (Option AFn)) : List IOp → Option (List (Option AFn))
  | [] => some a
  | op :: ops => (absStep a op).bind fun a => absRun a ops

/-- The operation does not meet an exception while a function is being changed (constructors may throw). -/
def Spec.noThrow : IOp → Prop
  | .assign _ _ _ throws => throws = false
  | .swap _ _ throws => throws = 0
  | _ => True

/-- The identities of the targets in the variables. -/
def held (l : List (Option IFn)) : List Nat := l.filterMap fun o => o.bind fun f => f.st.map Target.id

/-! ### Simulation -/

def absFn (f : IFn) : AFn := ⟨f.cls, f.st.map fun t => (t.kind, t.val)⟩

/-- The storage holds a target of the type of the vtable, or none. -/
def WF (f : IFn) : Prop :=
  match f.vt, f.st with
  | .empty _, none => True
  | .fn k, some t => t.kind = k
  | _, _ => False

structure Sim (w : World) (a : List (Option AFn)) : Prop where
  abs : a = w.objs.map (Option.map absFn)
  wf : ∀ (i : Nat) (f : IFn), w.objs[i]? = some (some f) → WF f
  cnt : ∀ t, w.destroyed.count t + (held w.objs).count t = if t < w.next then 1 else 0

def hAt (o : Option IFn) (t : Nat) : Nat := if (o.bind fun f => f.st.map Target.id) = some t then 1 else 0

theorem held_set {l : List (Option IFn)} {i : Nat} {old : Option IFn} (h : l[i]? = some old) (x : Option IFn) (t : Nat) :
    (held (l.set i x)).count t + hAt old t = (held l).count t + hAt x t := by
  induction l generalizing i with
  | nil => cases h
  | cons o l ih =>
    have hc : ∀ (o : Option IFn) (l : List (Option IFn)), (held (o :: l)).count t = hAt o t + (held l).count t := by
      intro o l
      unfold held hAt
      rw [List.filterMap_cons]
      cases hb : (o.bind fun f => f.st.map Target.id) with
      | none => simp
      | some v =>
        simp only [List.count_cons, Option.some.injEq, beq_iff_eq]
        omega
    cases i with
    | zero =>
      simp only [List.getElem?_cons_zero, Option.some.injEq] at h
      subst h
      rw [List.set_cons_zero, hc, hc]; omega
    | succ i =>
      rw [List.set_cons_succ, hc, hc]
      have := ih (i := i) (by simpa using h)
      omega

theorem sim_get {w : World} {a : List (Option AFn)} (h : Sim w a) {i : Nat} {g : AFn} (hg : a[i]? = some (some g)) :
    ∃ f, w.objs[i]? = some (some f) ∧ absFn f = g ∧ WF f ∧ w.get i = .ok f := by
  rw [h.abs, List.getElem?_map] at hg
  cases ho : w.objs[i]? with
  | none => rw [ho] at hg; cases hg
  | some o =>
    rw [ho] at hg
    cases o with
    | none => cases hg
    | some f =>
      simp only [Option.map_some, Option.some.injEq] at hg
      refine ⟨f, rfl, hg, h.wf i f ho, ?_⟩
      unfold World.get
      rw [ho]

theorem sim_free {w : World} {a : List (Option AFn)} (h : Sim w a) {i : Nat} (hg : a[i]? = some none) :
    w.objs[i]? = some none ∧ w.free i = .ok () := by
  rw [h.abs, List.getElem?_map] at hg
  cases ho : w.objs[i]? with
  | none => rw [ho] at hg; cases hg
  | some o =>
    rw [ho] at hg
    cases o with
    | some f => cases hg
    | none =>
      refine ⟨rfl, ?_⟩
      unfold World.free
      rw [ho]

/-- Changing one variable. -/
theorem sim_put {w : World} {a : List (Option AFn)} (h : Sim w a) {i next : Nat} {destroyed : List Nat} {old x : Option IFn}
    (ho : w.objs[i]? = some old) (hx : ∀ f, x = some f → WF f)
    (hc : ∀ t, (destroyed.count t + hAt x t : Int) = (if t < next then 1 else 0) - (if t < w.next then 1 else 0) + w.destroyed.count t
      + hAt old t) :
    Sim ⟨w.objs.set i x, next, destroyed⟩ (a.set i (x.map absFn)) := by
  refine ⟨by rw [h.abs, List.map_set], ?_, ?_⟩
  · intro j f hj
    simp only [List.getElem?_set] at hj
    split at hj
    · split at hj
      · exact hx f (by simpa using hj)
      · cases hj
    · exact h.wf j f hj
  · intro t
    have h1 := held_set ho x t
    have h2 := h.cnt t
    have h3 := hc t
    simp only []
    split at h2 <;> split <;> split at h3 <;> (try split at h3) <;> first | contradiction | omega

theorem wf_cases {f : IFn} (h : WF f) :
    (∃ c e, f = ⟨c, .empty e, none⟩) ∨ ∃ c id k v, f = ⟨c, .fn k, some ⟨id, k, v⟩⟩ := by
  obtain ⟨c, vt, st⟩ := f
  cases vt with
  | empty e =>
    cases st with
    | none => exact .inl ⟨c, e, rfl⟩
    | some t => exact h.elim
  | fn k =>
    cases st with
    | none => exact h.elim
    | some t =>
      obtain ⟨id, kd, v⟩ := t
      simp only [WF] at h
      subst h
      exact .inr ⟨c, id, kd, v, rfl⟩

theorem count_new (t n : Nat) : (if t < n + 1 then (1 : Int) else 0) - (if t < n then 1 else 0) = if n = t then 1 else 0 := by
  split <;> split <;> split <;> omega

theorem hAt_none (t : Nat) : hAt none t = 0 := rfl
theorem hAt_empty (c : Nat) (vt : VT) (t : Nat) : hAt (some ⟨c, vt, none⟩) t = 0 := rfl
theorem hAt_some (c : Nat) (vt : VT) (id k : Nat) (v : Option Nat) (t : Nat) :
    hAt (some ⟨c, vt, some ⟨id, k, v⟩⟩) t = if id = t then 1 else 0 := by
  simp [hAt]

theorem count_cons' (x t : Nat) (l : List Nat) : (x :: l).count t = l.count t + if x = t then 1 else 0 := by
  rw [List.count_cons]; simp

/-- Settles which targets exist after a change of one variable. -/
macro "cnt" : tactic => `(tactic| (intro t; simp only [hAt_none, hAt_empty, hAt_some, World.put, count_cons'] <;> (repeat' split) <;> omega))

theorem set_self {β : Type} {l : List β} {i : Nat} {x : β} (h : l[i]? = some x) : l.set i x = l := by
  apply List.ext_getElem?
  intro j
  rw [List.getElem?_set]
  split
  · next e =>
    subst e
    rw [if_pos (List.getElem?_eq_some_iff.mp h).1, h]
  · rfl

theorem sim_step {w : World} {a a' : List (Option AFn)} {op : IOp} (h : Sim w a) (hn : noThrow op) (ha : absStep a op = some a') :
    ∃ w', ifStep w op = .ok w' ∧ Sim w' a' := by
  cases op with
  | create i cls =>
    simp only [absStep] at ha
    split at ha
    · next hf =>
      cases ha
      obtain ⟨ho, hfr⟩ := sim_free h hf
      refine ⟨_, by rw [ifStep, ifCreate, hfr, Res.ok_bind], ?_⟩
      exact sim_put h ho (x := some ⟨cls, .empty cls, none⟩) (by intro f hf; cases hf; trivial) (by cnt)
    · cases ha
  | closure i cls kind val throws =>
    simp only [absStep] at ha
    split at ha
    · next hf =>
      cases ha
      obtain ⟨ho, hfr⟩ := sim_free h hf
      rw [ifStep, ifClosure, hfr, Res.ok_bind]
      cases throws with
      | true => exact ⟨w, rfl, h⟩
      | false =>
        refine ⟨_, rfl, ?_⟩
        exact sim_put h ho (x := some ⟨cls, .fn kind, some ⟨w.next, kind, some val⟩⟩) (by intro f hf; cases hf; rfl)
          (by cnt)
    · cases ha
  | clone i j cls mv throws =>
    simp only [absStep] at ha
    split at ha
    · next o hi hj =>
      obtain ⟨hoi, hfr⟩ := sim_free h hi
      obtain ⟨f, hfj, hfa, hwf, hget⟩ := sim_get h hj
      have hne : j ≠ i := by rintro rfl; rw [hfj] at hoi; cases hoi
      rw [ifStep, ifClone, hfr, Res.ok_bind, hget, Res.ok_bind]
      rcases wf_cases hwf with ⟨c, e, rfl⟩ | ⟨c, id, k, v, rfl⟩
      · simp only [ifProcess, Res.ok_bind]
        cases hfa
        simp only [absFn, Option.map_none, ne_eq, not_true_eq_false, and_false, if_false, Option.some.injEq] at ha
        rw [if_neg (by simp)]
        refine ⟨_, rfl, ?_⟩
        subst ha
        have e1 : (if mv then AFn.movedFrom ⟨c, none⟩ else ⟨c, none⟩) = (⟨c, none⟩ : AFn) := by cases mv <;> rfl
        rw [e1]
        have s1 := sim_put h hfj (x := some ⟨c, .empty e, none⟩) (next := w.next) (destroyed := w.destroyed)
          (by intro f hf; cases hf; trivial) (by cnt)
        exact sim_put s1 (i := i) (old := none) (x := some ⟨cls, .empty e, none⟩) (by rw [List.getElem?_set_ne hne]; exact hoi)
          (by intro f hf; cases hf; trivial) (by cnt)
      · simp only [ifProcess, if_true, Res.ok_bind]
        cases hfa
        cases throws with
        | true =>
          simp only [absFn, Option.map_some, ne_eq, reduceCtorEq, not_false_eq_true, and_self, if_true, Option.some.injEq] at ha
          subst ha
          exact ⟨w, by simp, h⟩
        | false =>
          simp only [absFn, Option.map_some, ne_eq, Bool.false_eq_true, false_and, if_false, Option.some.injEq] at ha
          rw [if_neg (by simp)]
          refine ⟨_, rfl, ?_⟩
          subst ha
          have s1 := sim_put h hfj (x := some ⟨c, .fn k, some ⟨id, k, if mv then none else v⟩⟩) (next := w.next) (destroyed := w.destroyed)
            (by intro f hf; cases hf; rfl) (by cnt)
          have s2 := sim_put s1 (i := i) (old := none) (x := some ⟨cls, .fn k, some ⟨w.next, k, v⟩⟩) (next := w.next + 1)
            (destroyed := w.destroyed) (by rw [List.getElem?_set_ne hne]; exact hoi)
            (by intro f hf; cases hf; rfl) (by cnt)
          cases mv <;> exact s2
    · cases ha
  | assignNull i =>
    simp only [absStep] at ha
    split at ha
    · next g hi =>
      cases ha
      obtain ⟨f, hfi, hfa, hwf, hget⟩ := sim_get h hi
      rw [ifStep, ifAssignNull, hget, Res.ok_bind]
      rcases wf_cases hwf with ⟨c, e, rfl⟩ | ⟨c, id, k, v, rfl⟩
      · cases hfa
        exact ⟨_, rfl, sim_put h hfi (x := some ⟨c, .empty c, none⟩) (by intro f hf; cases hf; trivial)
          (by cnt)⟩
      · cases hfa
        simp only [ifDestruct, if_true, Res.ok_bind]
        exact ⟨_, rfl, sim_put h hfi (x := some ⟨c, .empty c, none⟩) (by intro f hf; cases hf; trivial)
          (by cnt)⟩
    · cases ha
  | delete i =>
    simp only [absStep] at ha
    split at ha
    · next g hi =>
      cases ha
      obtain ⟨f, hfi, hfa, hwf, hget⟩ := sim_get h hi
      rw [ifStep, ifDelete, hget, Res.ok_bind]
      rcases wf_cases hwf with ⟨c, e, rfl⟩ | ⟨c, id, k, v, rfl⟩
      · exact ⟨_, rfl, sim_put h hfi (x := none) (by intro f hf; cases hf)
          (by cnt)⟩
      · simp only [ifDestruct, if_true, Res.ok_bind]
        exact ⟨_, rfl, sim_put h hfi (x := none) (by intro f hf; cases hf)
          (by cnt)⟩
    · cases ha
  | assign i j mv throws =>
    cases hn
    simp only [absStep] at ha
    split at ha
    · next g o hi hj =>
      obtain ⟨f, hfi, hfa, hwf, hget⟩ := sim_get h hi
      obtain ⟨q, hqj, hqa, hwq, hgetq⟩ := sim_get h hj
      split at ha
      · cases ha
      · next hcls =>
        have hcls' : f.cls = q.cls := by
          have : g.cls = o.cls := by simpa using hcls
          rw [← hfa, ← hqa] at this; exact this
        rw [ifStep, ifAssign, hget, Res.ok_bind, hgetq, Res.ok_bind, if_neg (by simpa using hcls')]
        split at ha
        · next hij => cases ha; rw [if_pos hij]; exact ⟨w, rfl, h⟩
        · next hij =>
          rw [if_neg hij]
          cases ha
          subst hfa hqa
          have hlook : ∀ x, (w.objs.set j x)[i]? = some (some f) := fun x => by rw [List.getElem?_set_ne (Ne.symm hij)]; exact hfi
          rcases wf_cases hwf with ⟨c, e, rfl⟩ | ⟨c, id, k, v, rfl⟩ <;> rcases wf_cases hwq with ⟨c', e', rfl⟩ | ⟨c', id', k', v', rfl⟩
          · simp only [ifDestruct, ifProcess, Res.ok_bind]
            rw [if_neg (by simp)]
            refine ⟨_, rfl, ?_⟩
            have e1 : (if mv then AFn.movedFrom ⟨c', none⟩ else ⟨c', none⟩) = (⟨c', none⟩ : AFn) := by cases mv <;> rfl
            simp only [absFn, Option.map_none]
            rw [e1]
            have s1 := sim_put h hqj (x := some ⟨c', .empty e', none⟩) (next := w.next) (destroyed := w.destroyed)
              (by intro f hf; cases hf; trivial) (by cnt)
            exact sim_put s1 (hlook _) (x := some ⟨c, .empty e', none⟩)
              (by intro f hf; cases hf; trivial) (by cnt)
          · simp only [ifDestruct, ifProcess, if_true, Res.ok_bind]
            rw [if_neg (by simp)]
            refine ⟨_, rfl, ?_⟩
            have s1 := sim_put h hqj (x := some ⟨c', .fn k', some ⟨id', k', if mv then none else v'⟩⟩) (next := w.next)
              (destroyed := w.destroyed) (by intro f hf; cases hf; rfl) (by cnt)
            have s2 := sim_put s1 (hlook _) (x := some ⟨c, .fn k', some ⟨w.next, k', v'⟩⟩) (next := w.next + 1)
              (destroyed := w.destroyed)
              (by intro f hf; cases hf; rfl) (by cnt)
            cases mv <;> exact s2
          · simp only [ifDestruct, ifProcess, if_true, Res.ok_bind]
            rw [if_neg (by simp)]
            refine ⟨_, rfl, ?_⟩
            have e1 : (if mv then AFn.movedFrom ⟨c', none⟩ else ⟨c', none⟩) = (⟨c', none⟩ : AFn) := by cases mv <;> rfl
            simp only [absFn, Option.map_none]
            rw [e1]
            have s1 := sim_put h hqj (x := some ⟨c', .empty e', none⟩) (next := w.next) (destroyed := w.destroyed)
              (by intro f hf; cases hf; trivial) (by cnt)
            exact sim_put s1 (hlook _) (x := some ⟨c, .empty e', none⟩)
              (by intro f hf; cases hf; trivial) (by cnt)
          · simp only [ifDestruct, ifProcess, if_true, Res.ok_bind]
            rw [if_neg (by simp)]
            refine ⟨_, rfl, ?_⟩
            have s1 := sim_put h hqj (x := some ⟨c', .fn k', some ⟨id', k', if mv then none else v'⟩⟩) (next := w.next)
              (destroyed := w.destroyed) (by intro f hf; cases hf; rfl) (by cnt)
            have s2 := sim_put s1 (hlook _) (x := some ⟨c, .fn k', some ⟨w.next, k', v'⟩⟩) (next := w.next + 1)
              (destroyed := id :: w.destroyed)
              (by intro f hf; cases hf; rfl) (by cnt)
            cases mv <;> exact s2
    · cases ha
  | swap i j throws =>
    cases hn
    simp only [absStep] at ha
    split at ha
    · next g o hi hj =>
      obtain ⟨f, hfi, hfa, hwf, hget⟩ := sim_get h hi
      obtain ⟨q, hqj, hqa, hwq, hgetq⟩ := sim_get h hj
      split at ha
      · cases ha
      · next hcls =>
        have hcls' : f.cls = q.cls := by
          have : g.cls = o.cls := by simpa using hcls
          rw [← hfa, ← hqa] at this; exact this
        rw [ifStep, ifSwap, hget, Res.ok_bind, hgetq, Res.ok_bind, if_neg (by simpa using hcls')]
        cases ha
        by_cases hij : i = j
        · subst hij
          rw [if_pos rfl]
          refine ⟨w, rfl, ?_⟩
          rw [hi] at hj
          cases hj
          rw [set_self hi, set_self hi]
          exact h
        · rw [if_neg hij]
          subst hfa hqa
          have hlook : ∀ x, (w.objs.set i x)[j]? = some (some q) := fun x => by rw [List.getElem?_set_ne hij]; exact hqj
          rcases wf_cases hwf with ⟨c, e, rfl⟩ | ⟨c, id, k, v, rfl⟩ <;> rcases wf_cases hwq with ⟨c', e', rfl⟩ | ⟨c', id', k', v', rfl⟩ <;>
            (simp only [] at hcls'; subst hcls')
          · simp only [ifDestruct, ifProcess, Res.ok_bind]
            refine ⟨_, rfl, ?_⟩
            have s1 := sim_put h hfi (x := some ⟨c, .empty e', none⟩) (next := w.next) (destroyed := w.destroyed)
              (by intro f hf; cases hf; trivial) (by cnt)
            exact sim_put s1 (hlook _) (x := some ⟨c, .empty e, none⟩)
              (by intro f hf; cases hf; trivial) (by cnt)
          · simp only [ifDestruct, ifProcess, if_true, Res.ok_bind]
            refine ⟨_, rfl, ?_⟩
            have s1 := sim_put h hfi (x := some ⟨c, .fn k', some ⟨w.next, k', v'⟩⟩) (next := w.next + 1)
              (destroyed := w.destroyed) (by intro f hf; cases hf; rfl)
              (by cnt)
            exact sim_put s1 (hlook _) (x := some ⟨c, .empty e, none⟩) (next := w.next + 1) (destroyed := id' :: w.destroyed)
              (by intro f hf; cases hf; trivial) (by cnt)
          · simp only [ifDestruct, ifProcess, if_true, Res.ok_bind]
            refine ⟨_, rfl, ?_⟩
            have s1 := sim_put h hfi (x := some ⟨c, .empty e', none⟩) (next := w.next + 1) (destroyed := w.next :: id :: w.destroyed)
              (by intro f hf; cases hf; trivial)
              (by cnt)
            exact sim_put s1 (hlook _) (x := some ⟨c, .fn k, some ⟨w.next + 1, k, v⟩⟩) (next := w.next + 1 + 1)
              (destroyed := w.next :: id :: w.destroyed)
              (by intro f hf; cases hf; rfl) (by cnt)
          · simp only [ifDestruct, ifProcess, if_true, Res.ok_bind]
            refine ⟨_, rfl, ?_⟩
            have s0 := sim_put h hfi (x := some ⟨c, .fn k, some ⟨w.next, k, v⟩⟩) (next := w.next + 1) (destroyed := id :: w.destroyed)
              (by intro f hf; cases hf; rfl)
              (by cnt)
            have hlook2 : ∀ x, ((w.objs.set i x))[i]? = some x := fun x => by
              rw [List.getElem?_set_self (List.getElem?_eq_some_iff.mp hfi).1]
            have s1 := sim_put s0 (hlook2 _) (x := some ⟨c, .fn k', some ⟨w.next + 1, k', v'⟩⟩) (next := w.next + 1 + 1)
              (destroyed := w.next :: id :: w.destroyed)
              (by intro f hf; cases hf; rfl)
              (by cnt)
            simp only [List.set_set] at s1
            exact sim_put s1 (hlook _) (x := some ⟨c, .fn k, some ⟨w.next + 1 + 1, k, v⟩⟩) (next := w.next + 1 + 1 + 1)
              (destroyed := w.next :: id' :: id :: w.destroyed)
              (by intro f hf; cases hf; rfl)
              (by cnt)
    · cases ha

theorem sim_run {ops : List IOp} : ∀ {w : World} {a a' : List (Option AFn)}, Sim w a → (∀ op ∈ ops, noThrow op) → absRun a ops = some a' →
    ∃ w', ifRun w ops = .ok w' ∧ Sim w' a' := by
  induction ops with
  | nil => intro w a a' h _ ha; cases ha; exact ⟨w, rfl, h⟩
  | cons op ops ih =>
    intro w a a' h hn ha
    simp only [absRun] at ha
    cases hs : absStep a op with
    | none => rw [hs] at ha; cases ha
    | some b =>
      rw [hs] at ha
      obtain ⟨w1, h1, h2⟩ := sim_step h (hn op (by simp)) hs
      obtain ⟨w2, h3, h4⟩ := ih h2 (fun o ho => hn o (by simp [ho])) ha
      exact ⟨w2, by rw [ifRun, h1, Res.ok_bind, h3], h4⟩

theorem sim_start (n : Nat) : Sim ⟨List.replicate n none, 0, []⟩ (List.replicate n none) := by
  refine ⟨by simp, ?_, ?_⟩
  · intro i f hf
    simp [List.getElem?_replicate] at hf
  · intro t
    have : held (List.replicate n none) = [] := by unfold held; rw [List.filterMap_replicate]; rfl
    simp [this]

/-! ### C82 -/

/-- Every program whose steps are meaningful and in which no exception escapes from an assignment or a swap runs without undefined
behaviour, and the variables then hold what the steps are meant to leave there: calling a function runs the target last
constructed, copied, moved or swapped there, with its value, or throws `std::bad_function_call` if there is none. -/
theorem C82_inplaceFunction_targets_partial (n : Nat) {ops : List IOp} {a : List (Option AFn)} (hn : ∀ op ∈ ops, noThrow op)
    (ha : absRun (List.replicate n none) ops = some a) :
    ∃ w, ifRun ⟨List.replicate n none, 0, []⟩ ops = .ok w ∧ w.objs.length = a.length ∧
      (∀ i : Nat, a[i]? = some none ↔ w.objs[i]? = some none) ∧
      ∀ (i : Nat) (g : AFn), a[i]? = some (some g) → ifInvoke w i = .ok g.tgt ∧ ∃ f, w.objs[i]? = some (some f) ∧ f.cls = g.cls := by
  obtain ⟨w, h1, h2⟩ := sim_run (sim_start n) hn ha
  refine ⟨w, h1, by rw [h2.abs, List.length_map], ?_, ?_⟩
  · intro i
    rw [h2.abs, List.getElem?_map]
    cases w.objs[i]? with
    | none => simp
    | some o => cases o <;> simp
  · intro i g hg
    obtain ⟨f, hf, hfa, hwf, hget⟩ := sim_get h2 hg
    subst hfa
    refine ⟨?_, f, hf, rfl⟩
    rw [ifInvoke, hget, Res.ok_bind]
    rcases wf_cases hwf with ⟨c, e, rfl⟩ | ⟨c, id, k, v, rfl⟩
    · rfl
    · simp [absFn]

/-- In such a program every target that was constructed either is in exactly one variable and was not destroyed, or is in none and
was destroyed exactly once; and only constructed targets are destroyed. -/
theorem C82_inplaceFunction_once_partial (n : Nat) {ops : List IOp} {a : List (Option AFn)} (hn : ∀ op ∈ ops, noThrow op)
    (ha : absRun (List.replicate n none) ops = some a) :
    ∃ w, ifRun ⟨List.replicate n none, 0, []⟩ ops = .ok w ∧
      (∀ t, t < w.next →
        ((∃ (i : Nat) (f : IFn) (x : Target), w.objs[i]? = some (some f) ∧ f.st = some x ∧ x.id = t) ∧ w.destroyed.count t = 0) ∨
        ((¬∃ (i : Nat) (f : IFn) (x : Target), w.objs[i]? = some (some f) ∧ f.st = some x ∧ x.id = t) ∧ w.destroyed.count t = 1)) ∧
      (held w.objs).Nodup ∧ (∀ t, w.next ≤ t → t ∉ w.destroyed) := by
  obtain ⟨w, h1, h2⟩ := sim_run (sim_start n) hn ha
  have hmem : ∀ t, t ∈ held w.objs ↔
      ∃ (i : Nat) (f : IFn) (x : Target), w.objs[i]? = some (some f) ∧ f.st = some x ∧ x.id = t := by
    intro t
    unfold held
    rw [List.mem_filterMap]
    constructor
    · rintro ⟨o, ho, hx⟩
      obtain ⟨i, hi⟩ := List.getElem?_of_mem ho
      cases o with
      | none => cases hx
      | some f =>
        cases hs : f.st with
        | none => simp [hs] at hx
        | some x => simp [hs] at hx; exact ⟨i, f, x, hi, hs, hx⟩
    · rintro ⟨i, f, x, hi, hs, hx⟩
      exact ⟨some f, List.mem_of_getElem? hi, by simp [hs, hx]⟩
  refine ⟨w, h1, ?_, ?_, ?_⟩
  · intro t ht
    have hc := h2.cnt t
    rw [if_pos ht] at hc
    rw [← hmem]
    by_cases hm : t ∈ held w.objs
    · have := List.count_pos_iff.mpr hm
      exact .inl ⟨hm, by omega⟩
    · have := List.count_eq_zero.mpr hm
      exact .inr ⟨hm, by omega⟩
  · rw [List.nodup_iff_count]
    intro t
    have hc := h2.cnt t
    split at hc <;> omega
  · intro t ht
    have hc := h2.cnt t
    rw [if_neg (by omega)] at hc
    exact List.count_eq_zero.mp (by omega)

/-- If the program ends with all its functions destroyed, all targets were: each exactly once. -/
theorem C82_inplaceFunction_all_partial (n : Nat) {ops : List IOp} {a : List (Option AFn)} (hn : ∀ op ∈ ops, noThrow op)
    (ha : absRun (List.replicate n none) ops = some a) (he : ∀ o ∈ a, o = none) :
    ∃ w, ifRun ⟨List.replicate n none, 0, []⟩ ops = .ok w ∧ w.destroyed.Perm (List.range w.next) := by
  obtain ⟨w, h1, h2⟩ := sim_run (sim_start n) hn ha
  refine ⟨w, h1, ?_⟩
  have hh : held w.objs = [] := by
    unfold held
    rw [List.filterMap_eq_nil_iff]
    intro o ho
    have := he (o.map absFn) (by rw [h2.abs]; exact List.mem_map_of_mem ho)
    cases o with
    | none => rfl
    | some f => cases this
  rw [List.perm_iff_count]
  intro t
  have hc := h2.cnt t
  rw [hh, List.count_nil, Nat.add_zero] at hc
  rw [hc]
  by_cases ht : t < w.next
  · rw [if_pos ht]
    rw [List.nodup_range.count, if_pos (List.mem_range.mpr ht)]
  · rw [if_neg ht]
    exact (List.count_eq_zero.mpr (by simpa using ht)).symm

/-- A program with copies, moves, a conversion, an exception in a constructor, a swap and an assignment. -/
def demo82 : List IOp :=
  [.closure 0 7 1 10 false, .closure 1 7 2 20 false, .create 2 7, .clone 3 0 8 false false, .swap 0 2 0, .assign 1 2 true false,
    .clone 4 3 8 false true, .assignNull 2, .swap 0 1 0]

example : (∀ op ∈ demo82, noThrow op) ∧ absRun (List.replicate 5 none) demo82
    = some [some ⟨7, some (1, some 10)⟩, some ⟨7, none⟩, some ⟨7, none⟩, some ⟨8, some (1, some 10)⟩, none] := by
  refine ⟨?_, by decide +kernel⟩
  intro op h
  simp only [demo82, List.mem_cons, List.not_mem_nil, or_false] at h
  rcases h with rfl | rfl | rfl | rfl | rfl | rfl | rfl | rfl | rfl <;> simp [noThrow]

/-- The same program, then the end of the lifetime of its variables: seven targets were constructed, seven destroyed. -/
example : (ifRun ⟨List.replicate 5 none, 0, []⟩ (demo82 ++ [.delete 0, .delete 1, .delete 2, .delete 3])
    >>= fun w => Res.ok (w.next, w.destroyed)) = .ok (7, [2, 6, 5, 4, 1, 3, 0]) := by decide +kernel

/-- The property is false if the constructor of a target throws in an assignment: the old target is destroyed and the vtable pointer
replaced before, so that the destructor of the function then destroys a target that was never constructed. -/
theorem C82_refuted : ∃ (n : Nat) (ops : List IOp) (a : List (Option AFn)),
    absRun (List.replicate n none) ops = some a ∧ ifRun ⟨List.replicate n none, 0, []⟩ ops = .ub :=
  ⟨2, [.closure 0 7 1 10 false, .closure 1 7 2 20 false, .assign 0 1 false true, .delete 0], _, rfl, by decide +kernel⟩

/-- And in a swap: if the second move throws, the first function has no target though its vtable is the one of a target; and a target
in the temporary storage is never destroyed. -/
theorem C82_refuted_swap :
    (∃ (ops : List IOp), ifRun ⟨[none, none], 0, []⟩ ops = .ub ∧
      ops = [.closure 0 7 1 10 false, .closure 1 7 2 20 false, .swap 0 1 2, .delete 0]) ∧
    ∃ (ops : List IOp) (w : World), ifRun ⟨[none, none], 0, []⟩ ops = .ok w ∧
      ops = [.create 0 7, .closure 1 7 2 20 false, .swap 1 0 3, .delete 0] ∧ w.next = 2 ∧ w.destroyed = [0] ∧
      held w.objs = [] :=
  ⟨⟨_, by decide +kernel, rfl⟩, ⟨_, ⟨[none, some ⟨7, .fn 2, none⟩], 2, [0]⟩, by decide +kernel, rfl, rfl, rfl, rfl⟩⟩

/-! ### C98 -/

/-- The operation does not convert an empty function to another class. -/
def Spec.noEmptyConv (a : List (Option AFn)) : IOp → Prop
  | .clone _ j cls _ _ => ∀ o, a[j]? = some (some o) → o.tgt = none → o.cls = cls
  | _ => True

/-- No step of the program converts an empty function to another class. -/
def Spec.noEmptyConvs : List (Option AFn) → List IOp → Prop
  | _, [] => True
  | a, op :: ops => noEmptyConv a op ∧ ∀ a', absStep a op = some a' → noEmptyConvs a' ops

/-- Empty functions have the empty vtable of their class. -/
def OwnEmpty (w : World) : Prop := ∀ (i : Nat) (f : IFn) (c : Nat), w.objs[i]? = some (some f) → f.vt = .empty c → c = f.cls

theorem ownEmpty_set {l : List (Option IFn)} {n n' : Nat} {d d' : List Nat} {i : Nat} {x : Option IFn} (h : OwnEmpty ⟨l, n, d⟩)
    (hx : ∀ f c, x = some f → f.vt = .empty c → c = f.cls) : OwnEmpty ⟨l.set i x, n', d'⟩ := by
  intro j f c hj hv
  simp only [List.getElem?_set] at hj
  split at hj
  · split at hj
    · exact hx f c (by simpa using hj) hv
    · cases hj
  · exact h j f c hj hv

theorem ownEmpty_step {w w' : World} {a a' : List (Option AFn)} {op : IOp} (h : Sim w a) (ho : OwnEmpty w) (hn : noThrow op)
    (hc : noEmptyConv a op) (ha : absStep a op = some a') (hs : ifStep w op = .ok w') : OwnEmpty w' := by
  obtain ⟨l, n, d⟩ := w
  cases op with
  | create i cls =>
    simp only [ifStep, ifCreate] at hs
    cases hf : World.free ⟨l, n, d⟩ i <;> rw [hf] at hs <;> try cases hs
    exact ownEmpty_set ho (by intro f c hx hv; cases hx; cases hv; rfl)
  | closure i cls kind val throws =>
    simp only [ifStep, ifClosure] at hs
    cases hf : World.free ⟨l, n, d⟩ i <;> rw [hf] at hs <;> try cases hs
    rw [Res.ok_bind] at hs
    split at hs <;> cases hs
    · exact ho
    · exact ownEmpty_set ho (by intro f c hx hv; cases hx; cases hv)
  | clone i j cls mv throws =>
    simp only [absStep] at ha
    split at ha
    · next o hi hj =>
      obtain ⟨_, hfr⟩ := sim_free h hi
      obtain ⟨f, hfj, hfa, hwf, hget⟩ := sim_get h hj
      rw [ifStep, ifClone, hfr, Res.ok_bind, hget, Res.ok_bind] at hs
      have hcv : ∀ c, f.vt = .empty c → c = cls := by
        intro c hv
        rw [ho j f c hfj hv]
        have := hc o hj
        subst hfa
        apply this
        rcases wf_cases hwf with ⟨_, _, rfl⟩ | ⟨_, _, _, _, rfl⟩
        · rfl
        · cases hv
      have hself : ∀ c, f.vt = .empty c → c = f.cls := fun c hv => ho j f c hfj hv
      cases hp : ifProcess mv f.vt none f.st n with
      | ok r =>
        simp only [hp, Res.ok_bind] at hs
        split at hs <;> cases hs
        · exact ho
        · exact ownEmpty_set (ownEmpty_set ho (by intro g c hx hv; cases hx; exact hself c hv)) (n := n) (d := d)
            (by intro g c hx hv; cases hx; exact hcv c hv)
      | _ => simp only [hp] at hs; cases hs
    · cases ha
  | assignNull i =>
    simp only [absStep] at ha
    split at ha
    · next g hi =>
      obtain ⟨f, hfi, hfa, hwf, hget⟩ := sim_get h hi
      rw [ifStep, ifAssignNull, hget, Res.ok_bind] at hs
      cases hp : ifDestruct f.vt f.st d with
      | ok r =>
        simp only [hp, Res.ok_bind] at hs
        cases hs
        exact ownEmpty_set ho (by intro g c hx hv; cases hx; cases hv; rfl)
      | _ => simp only [hp] at hs; cases hs
    · cases ha
  | delete i =>
    simp only [absStep] at ha
    split at ha
    · next g hi =>
      obtain ⟨f, hfi, hfa, hwf, hget⟩ := sim_get h hi
      rw [ifStep, ifDelete, hget, Res.ok_bind] at hs
      cases hp : ifDestruct f.vt f.st d with
      | ok r =>
        simp only [hp, Res.ok_bind] at hs
        cases hs
        exact ownEmpty_set ho (by intro g c hx hv; cases hx)
      | _ => simp only [hp] at hs; cases hs
    · cases ha
  | assign i j mv throws =>
    cases hn
    simp only [absStep] at ha
    split at ha
    · next g o hi hj =>
      obtain ⟨f, hfi, hfa, hwf, hget⟩ := sim_get h hi
      obtain ⟨q, hqj, hqa, hwq, hgetq⟩ := sim_get h hj
      rw [ifStep, ifAssign, hget, Res.ok_bind, hgetq, Res.ok_bind] at hs
      split at hs
      · cases hs
      · next hcls =>
        have hcls : f.cls = q.cls := by simpa using hcls
        have hself : ∀ c, q.vt = .empty c → c = q.cls := fun c hv => ho j q c hqj hv
        split at hs
        · cases hs; exact ho
        · cases hp : ifDestruct f.vt f.st d with
          | ok r =>
            simp only [hp, Res.ok_bind] at hs
            cases hp2 : ifProcess mv q.vt r.1 q.st n with
            | ok r2 =>
              simp only [hp2, Res.ok_bind] at hs
              rw [if_neg (by simp)] at hs
              cases hs
              exact ownEmpty_set (ownEmpty_set ho (by intro g c hx hv; cases hx; exact hself c hv)) (n := n) (d := d)
                (by intro g c hx hv; cases hx; exact (hself c hv).trans hcls.symm)
            | _ => simp only [hp2] at hs; cases hs
          | _ => simp only [hp] at hs; cases hs
    · cases ha
  | swap i j throws =>
    cases hn
    simp only [absStep] at ha
    split at ha
    · next g o hi hj =>
      obtain ⟨f, hfi, hfa, hwf, hget⟩ := sim_get h hi
      obtain ⟨q, hqj, hqa, hwq, hgetq⟩ := sim_get h hj
      rw [ifStep, ifSwap, hget, Res.ok_bind, hgetq, Res.ok_bind] at hs
      split at hs
      · cases hs
      · next hcls =>
        have hcls : f.cls = q.cls := by simpa using hcls
        have hq : ∀ c, q.vt = .empty c → c = q.cls := fun c hv => ho j q c hqj hv
        have hf : ∀ c, f.vt = .empty c → c = f.cls := fun c hv => ho i f c hfi hv
        split at hs
        · cases hs; exact ho
        · have key : ∃ x y n' d', w' = ⟨(l.set i (some ⟨f.cls, q.vt, x⟩)).set j (some ⟨q.cls, f.vt, y⟩), n', d'⟩ := by
            simp only [bind, Res.bind, World.put] at hs
            repeat' split at hs
            all_goals first | (cases hs; done) | (exfalso; omega) | (cases hs; exact ⟨_, _, _, _, rfl⟩)
          obtain ⟨x, y, n', d', rfl⟩ := key
          exact ownEmpty_set (ownEmpty_set ho (by intro g c hx hv; cases hx; exact (hq c hv).trans hcls.symm)) (n := n) (d := d)
            (by intro g c hx hv; cases hx; exact (hf c hv).trans hcls)
    · cases ha

theorem ownEmpty_run {ops : List IOp} : ∀ {w : World} {a a' : List (Option AFn)}, Sim w a → OwnEmpty w → (∀ op ∈ ops, noThrow op) →
    noEmptyConvs a ops → absRun a ops = some a' → ∃ w', ifRun w ops = .ok w' ∧ Sim w' a' ∧ OwnEmpty w' := by
  induction ops with
  | nil => intro w a a' h ho _ _ ha; cases ha; exact ⟨w, rfl, h, ho⟩
  | cons op ops ih =>
    intro w a a' h ho hn hc ha
    simp only [absRun] at ha
    cases hs : absStep a op with
    | none => rw [hs] at ha; cases ha
    | some b =>
      rw [hs] at ha
      obtain ⟨w1, h1, h2⟩ := sim_step h (hn op (by simp)) hs
      have ho' := ownEmpty_step h ho (hn op (by simp)) hc.1 hs h1
      obtain ⟨w2, h3, h4⟩ := ih h2 ho' (fun o ho => hn o (by simp [ho])) (hc.2 b hs) ha
      exact ⟨w2, by rw [ifRun, h1, Res.ok_bind, h3], h4⟩

/-- After any program without exceptions in assignments and swaps, and in which no empty function is converted to another class,
`operator bool` tells whether a function has a target: also after conversions of functions that are not empty. -/
theorem C98_bool_partial (n : Nat) {ops : List IOp} {a : List (Option AFn)} (hn : ∀ op ∈ ops, noThrow op)
    (hc : noEmptyConvs (List.replicate n none) ops) (ha : absRun (List.replicate n none) ops = some a) :
    ∃ w, ifRun ⟨List.replicate n none, 0, []⟩ ops = .ok w ∧
      ∀ (i : Nat) (g : AFn), a[i]? = some (some g) → ifBool w i = .ok g.tgt.isSome := by
  obtain ⟨w, h1, h2, h3⟩ := ownEmpty_run (sim_start n)
    (by intro i f c hf; simp [List.getElem?_replicate] at hf) hn hc ha
  refine ⟨w, h1, ?_⟩
  intro i g hg
  obtain ⟨f, hf, hfa, hwf, hget⟩ := sim_get h2 hg
  subst hfa
  rw [ifBool, hget, Res.ok_bind]
  rcases wf_cases hwf with ⟨c, e, rfl⟩ | ⟨c, id, k, v, rfl⟩
  · rw [h3 i _ e hf rfl]; simp [absFn]
  · simp [absFn]

example : noEmptyConvs (List.replicate 3 none) [.closure 0 7 1 10 false, .clone 1 0 8 true false, .create 2 8, .swap 1 2 0] := by
  simp [noEmptyConvs, noEmptyConv, absStep]

/-- The property is false: an empty function converted to another class has the empty vtable of the class it comes from, and
`operator bool` says it has a target; calling it throws. -/
theorem C98_refuted : ∃ (ops : List IOp) (w : World), (∀ op ∈ ops, noThrow op) ∧
    absRun [none, none] ops = some [some ⟨7, none⟩, some ⟨8, none⟩] ∧ ifRun ⟨[none, none], 0, []⟩ ops = .ok w ∧
    ifBool w 0 = .ok false ∧ ifBool w 1 = .ok true ∧ ifInvoke w 1 = .ok none :=
  ⟨[.create 0 7, .clone 1 0 8 false false], ⟨[some ⟨7, .empty 7, none⟩, some ⟨8, .empty 7, none⟩], 0, []⟩,
    by simp [noThrow], by decide +kernel, by decide +kernel, by decide +kernel, by decide +kernel, by decide +kernel⟩

end C4
