import Verif.Props.InplaceFunction
/-
Property C98: exactly which functions are true, for all programs without exceptions.
-/
namespace C4

open Spec

/-- Where the emptiness of each variable comes from: the class whose default constructor or assignment of null made the empty function that was then copied, moved, converted, assigned or swapped to the variable
(of no meaning for functions with a target). -/
def Spec.originStep (a : List (Option AFn)) (p : List Nat) : IOp → List Nat
  | .create i cls => p.set i cls
  | .closure _ _ _ _ _ => p
  | .clone i j _ _ _ => p.set i (p[j]?.getD 0)
  | .assignNull i => match a[i]? with
    | some (some f) => p.set i f.cls
    | _ => p
  | .assign i j _ _ => p.set i (p[j]?.getD 0)
  | .swap i j _ => (p.set i (p[j]?.getD 0)).set j (p[i]?.getD 0)
  | .delete _ => p

def Spec.originRun : List (Option AFn) → List Nat → List IOp → List Nat
  | _, p, [] => p
  | a, p, op :: ops => match absStep a op with
    | none => p
    | some a' => originRun a' (originStep a p op) ops

/-- The empty vtable of an empty function is the one of the class of its origin. -/
def Orig (l : List (Option IFn)) (p : List Nat) : Prop :=
  l.length = p.length ∧ ∀ (i : Nat) (f : IFn) (c : Nat), l[i]? = some (some f) → f.vt = .empty c → p[i]? = some c

theorem orig_set {l : List (Option IFn)} {p p' : List Nat} {i : Nat} {x : Option IFn} (h : Orig l p) (hl : p'.length = p.length)
    (hx : ∀ f c, i < p.length → x = some f → f.vt = .empty c → p'[i]? = some c) (hp : ∀ j, j ≠ i → p'[j]? = p[j]?) : Orig (l.set i x) p' := by
  refine ⟨by rw [List.length_set, h.1, hl], ?_⟩
  intro j f c hj hv
  simp only [List.getElem?_set] at hj
  split at hj
  · next e =>
    subst e
    split at hj
    · next hlt => exact hx f c (h.1 ▸ hlt) (by simpa using hj) hv
    · cases hj
  · next e => rw [hp j (by omega)]; exact h.2 j f c hj hv

theorem orig_set' {l : List (Option IFn)} {p : List Nat} {i v : Nat} {x : Option IFn} (h : Orig l p)
    (hx : ∀ f c, x = some f → f.vt = .empty c → v = c) : Orig (l.set i x) (p.set i v) := by
  apply orig_set h (by simp)
  · intro f c hi he hv
    rw [List.getElem?_set_self hi, hx f c he hv]
  · intro j hj
    rw [List.getElem?_set_ne (by omega)]

theorem orig_keep {l : List (Option IFn)} {p : List Nat} {j : Nat} {f f' : IFn} (h : Orig l p) (hj : l[j]? = some (some f)) (hv : f'.vt = f.vt) :
    Orig (l.set j (some f')) p := by
  apply orig_set h rfl
  · intro g c _ he hg
    cases he
    exact h.2 j f c hj (hv ▸ hg)
  · intros; rfl

theorem orig_step {w w' : World} {a a' : List (Option AFn)} {p : List Nat} {op : IOp} (h : Sim w a) (ho : Orig w.objs p) (hn : noThrow op)
    (ha : absStep a op = some a') (hs : ifStep w op = .ok w') : Orig w'.objs (originStep a p op) := by
  obtain ⟨l, n, d⟩ := w
  simp only at ho
  cases op with
  | create i cls =>
    simp only [ifStep, ifCreate] at hs
    cases hf : World.free ⟨l, n, d⟩ i <;> rw [hf] at hs <;> try cases hs
    exact orig_set' ho (by intro f c hx hv; cases hx; cases hv; rfl)
  | closure i cls kind val throws =>
    simp only [ifStep, ifClosure] at hs
    cases hf : World.free ⟨l, n, d⟩ i <;> rw [hf] at hs <;> try cases hs
    rw [Res.ok_bind] at hs
    split at hs <;> cases hs
    · exact ho
    · exact orig_set ho rfl (by intro f c _ hx hv; cases hx; cases hv) (fun _ _ => rfl)
  | clone i j cls mv throws =>
    simp only [absStep] at ha
    split at ha
    · next o hi hj =>
      obtain ⟨hli, hfr⟩ := sim_free h hi
      obtain ⟨f, hfj, hfa, hwf, hget⟩ := sim_get h hj
      rw [ifStep, ifClone, hfr, Res.ok_bind, hget, Res.ok_bind] at hs
      have hself : ∀ c, f.vt = .empty c → p[j]?.getD 0 = c := fun c hv => by rw [ho.2 j f c hfj hv]; rfl
      have hij : i ≠ j := by
        rintro rfl
        simp only at hli hfj
        rw [hfj] at hli; cases hli
      cases hp : ifProcess mv f.vt none f.st n with
      | ok r =>
        simp only [hp, Res.ok_bind] at hs
        split at hs <;> cases hs
        · have : Orig (l.set i none) (p.set i (p[j]?.getD 0)) := orig_set' ho (by intro g c hx; cases hx)
          rw [set_self hli] at this
          exact this
        · exact orig_set' (orig_keep ho hfj rfl) (by intro g c hx hv; cases hx; exact hself c hv)
      | _ => simp only [hp] at hs; cases hs
    · cases ha
  | assignNull i =>
    simp only [absStep] at ha
    split at ha
    · next g hi =>
      obtain ⟨f, hfi, hfa, hwf, hget⟩ := sim_get h hi
      rw [ifStep, ifAssignNull, hget, Res.ok_bind] at hs
      cases hp : ifDestruct f.vt f.st d with
      | ok r =>
        simp only [hp, Res.ok_bind] at hs
        cases hs
        simp only [originStep, hi]
        exact orig_set' ho (by intro q c hx hv; cases hx; cases hv; rw [← hfa]; rfl)
      | _ => simp only [hp] at hs; cases hs
    · cases ha
  | delete i =>
    simp only [absStep] at ha
    split at ha
    · next g hi =>
      obtain ⟨f, hfi, hfa, hwf, hget⟩ := sim_get h hi
      rw [ifStep, ifDelete, hget, Res.ok_bind] at hs
      cases hp : ifDestruct f.vt f.st d with
      | ok r =>
        simp only [hp, Res.ok_bind] at hs
        cases hs
        exact orig_set ho rfl (by intro g c _ hx hv; cases hx) (fun _ _ => rfl)
      | _ => simp only [hp] at hs; cases hs
    · cases ha
  | assign i j mv throws =>
    cases hn
    simp only [absStep] at ha
    split at ha
    · next g o hi hj =>
      obtain ⟨f, hfi, hfa, hwf, hget⟩ := sim_get h hi
      obtain ⟨q, hqj, hqa, hwq, hgetq⟩ := sim_get h hj
      rw [ifStep, ifAssign, hget, Res.ok_bind, hgetq, Res.ok_bind] at hs
      have hself : ∀ c, q.vt = .empty c → p[j]?.getD 0 = c := fun c hv => by rw [ho.2 j q c hqj hv]; rfl
      split at hs
      · cases hs
      · split at hs
        · next e =>
          subst e
          cases hs
          have : Orig (l.set i (some q)) (p.set i (p[i]?.getD 0)) := orig_set' ho (by intro g c hx hv; cases hx; exact hself c hv)
          rw [set_self hqj] at this
          exact this
        · cases hp : ifDestruct f.vt f.st d with
          | ok r =>
            simp only [hp, Res.ok_bind] at hs
            cases hp2 : ifProcess mv q.vt r.1 q.st n with
            | ok r2 =>
              simp only [hp2, Res.ok_bind] at hs
              rw [if_neg (by simp)] at hs
              cases hs
              exact orig_set' (orig_keep ho hqj rfl) (by intro g c hx hv; cases hx; exact hself c hv)
            | _ => simp only [hp2] at hs; cases hs
          | _ => simp only [hp] at hs; cases hs
    · cases ha
  | swap i j throws =>
    cases hn
    simp only [absStep] at ha
    split at ha
    · next g o hi hj =>
      obtain ⟨f, hfi, hfa, hwf, hget⟩ := sim_get h hi
      obtain ⟨q, hqj, hqa, hwq, hgetq⟩ := sim_get h hj
      rw [ifStep, ifSwap, hget, Res.ok_bind, hgetq, Res.ok_bind] at hs
      have hq : ∀ c, q.vt = .empty c → p[j]?.getD 0 = c := fun c hv => by rw [ho.2 j q c hqj hv]; rfl
      have hf : ∀ c, f.vt = .empty c → p[i]?.getD 0 = c := fun c hv => by rw [ho.2 i f c hfi hv]; rfl
      split at hs
      · cases hs
      · split at hs
        · next e =>
          subst e
          cases hs
          have : Orig ((l.set i (some q)).set i (some q)) ((p.set i (p[i]?.getD 0)).set i (p[i]?.getD 0)) :=
            orig_set' (orig_set' ho (by intro g c hx hv; cases hx; exact hq c hv)) (by intro g c hx hv; cases hx; exact hq c hv)
          rw [set_self hqj, set_self hqj] at this
          exact this
        · have key : ∃ x y n' d', w' = ⟨(l.set i (some ⟨f.cls, q.vt, x⟩)).set j (some ⟨q.cls, f.vt, y⟩), n', d'⟩ := by
            simp only [bind, Res.bind, World.put] at hs
            repeat' split at hs
            all_goals first | (cases hs; done) | (exfalso; omega) | (cases hs; exact ⟨_, _, _, _, rfl⟩)
          obtain ⟨x, y, n', d', rfl⟩ := key
          exact orig_set' (orig_set' ho (by intro g c hx hv; cases hx; exact hq c hv)) (by intro g c hx hv; cases hx; exact hf c hv)
    · cases ha

theorem orig_run {ops : List IOp} : ∀ {w : World} {a a' : List (Option AFn)} {p : List Nat}, Sim w a → Orig w.objs p → (∀ op ∈ ops, noThrow op) →
    absRun a ops = some a' → ∃ w', ifRun w ops = .ok w' ∧ Sim w' a' ∧ Orig w'.objs (originRun a p ops) := by
  induction ops with
  | nil => intro w a a' p h ho _ ha; cases ha; exact ⟨w, rfl, h, ho⟩
  | cons op ops ih =>
    intro w a a' p h ho hn ha
    simp only [absRun] at ha
    cases hs : absStep a op with
    | none => rw [hs] at ha; cases ha
    | some b =>
      rw [hs] at ha
      obtain ⟨w1, h1, h2⟩ := sim_step h (hn op (by simp)) hs
      have ho' := orig_step h ho (hn op (by simp)) hs h1
      obtain ⟨w2, h3, h4, h5⟩ := ih h2 ho' (fun o ho => hn o (by simp [ho])) ha
      refine ⟨w2, by rw [ifRun, h1, Res.ok_bind, h3], h4, ?_⟩
      simp only [originRun, hs]
      exact h5

/-- **C98**, exactly: after any program without exceptions, a function is true if and only if it has a target, or it is empty and its emptiness comes from another class. -/
theorem C98_exact (n : Nat) {ops : List IOp} {a : List (Option AFn)} (hn : ∀ op ∈ ops, noThrow op)
    (ha : absRun (List.replicate n none) ops = some a) :
    ∃ w, ifRun ⟨List.replicate n none, 0, []⟩ ops = .ok w ∧ ∀ (i : Nat) (g : AFn), a[i]? = some (some g) →
      ∃ b, ifBool w i = .ok b ∧ (b = true ↔ g.tgt ≠ none ∨ (originRun (List.replicate n none) (List.replicate n 0) ops)[i]? ≠ some g.cls) := by
  obtain ⟨w, h1, h2, h3⟩ := orig_run (p := List.replicate n 0) (sim_start n) ⟨by simp, by
    intro i f c hi
    simp only [List.getElem?_replicate] at hi
    split at hi <;> cases hi⟩ hn ha
  refine ⟨w, h1, ?_⟩
  intro i g hg
  obtain ⟨f, hfi, hfa, hwf, hget⟩ := sim_get h2 hg
  refine ⟨_, by rw [ifBool, hget, Res.ok_bind], ?_⟩
  rcases wf_cases hwf with ⟨c, cls, rfl⟩ | ⟨_, _, _, _, rfl⟩
  · have := h3.2 i _ _ hfi rfl
    rw [this, ← hfa]
    simp [absFn]
  · rw [← hfa]
    simp [absFn]

example : absRun (List.replicate 3 none) [.create 0 1, .clone 1 0 2 false false, .clone 2 1 1 true false] = some [some ⟨1, none⟩, some ⟨2, none⟩, some ⟨1, none⟩] ∧
    originRun (List.replicate 3 none) (List.replicate 3 0) [.create 0 1, .clone 1 0 2 false false, .clone 2 1 1 true false] = [1, 1, 1] ∧
    (ifRun ⟨List.replicate 3 none, 0, []⟩ [.create 0 1, .clone 1 0 2 false false, .clone 2 1 1 true false]).bind (fun w => ifBool w 1) = .ok true ∧
    (ifRun ⟨List.replicate 3 none, 0, []⟩ [.create 0 1, .clone 1 0 2 false false, .clone 2 1 1 true false]).bind (fun w => ifBool w 2) = .ok false := by decide

end C4
