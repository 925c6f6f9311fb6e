import Verif.AliasNew
import Verif.Props.AliasFormat
/-
Property C181: assigning a new container made from views of containers, one of which may be the one assigned.
-/
namespace C4.Alias
open C4.Spec
open Spec (Has Shares Inside In text place content WF argText argsText withSep Pieces)

/-! ### Specification -/

/-- Argument `a` is the text `t`, the containers having the texts `T`. -/
inductive Spec.Value (T : Nat → List Nat) : NewArg → List Nat → Prop
  | txt {t} : Value T (.txt t) t
  | of {i pre t post} : T i = pre ++ t ++ post → Value T (.of i pre.length t.length) t

/-- The same for several arguments. -/
inductive Spec.Values (T : Nat → List Nat) : List NewArg → List (List Nat) → Prop
  | nil : Values T [] []
  | cons {a as t ts} : Value T a t → Values T as ts → Values T (a :: as) (t :: ts)

/-- The text that a call gives. -/
inductive Spec.Gives (T : Nat → List Nat) : Call → List Nat → Prop
  | cat {args ts} : Values T args ts → Gives T (.cat args) ts.flatten
  | catsep {sep args t ts} : Value T sep t → Values T args ts → Gives T (.catsep sep args) (separated t ts)
  | format {fmt args t ts out} : Value T fmt t → Values T args ts → Subst t ts out → Gives T (.format fmt args) out

/-- The texts after a program, each statement giving its container the text of the call. -/
inductive Spec.Texts : (Nat → List Nat) → List (Nat × Call) → (Nat → List Nat) → Prop
  | nil {T} : Texts T [] T
  | cons {T T' i c out r} : Gives T c out → Texts (fun j => if j = i then out else T j) r T' → Texts T ((i, c) :: r) T'

open Spec (Value Values Gives Texts)

/-! ### Lemmas -/

theorem cat_ext_same (dbg : Bool) : ∀ (args : List Arg) (s : Cont) (buf : View) (n : Nat) (s' : Cont), (∀ b v, Arg.own b v ∉ args) → cat dbg s buf args = .ok (n, s') →
    s'.size = s.size ∧ s'.term = s.term ∧ s'.mem.length = s.mem.length := by
  intro args
  induction args with
  | nil => intro s buf n s' _ h; cases h; exact ⟨rfl, rfl, rfl⟩
  | cons a as ih =>
    intro s buf n s' ho h
    cases a with
    | own b v => exact absurd List.mem_cons_self (ho b v)
    | ext t =>
      unfold cat argToChars at h
      dsimp only at h
      cases hm : memcpyTo s.mem buf.str (t.take (if buf.len < t.length then buf.len else t.length)) with
      | ok m =>
        rw [hm, Res.ok_bind, Res.ok_bind] at h
        dsimp only at h
        generalize hb : (if buf.len ≥ t.length then (⟨buf.str + t.length, buf.len - t.length⟩ : View) else ⟨0, 0⟩) = b2 at h
        cases hc : cat dbg { s with mem := m } b2 as with
        | ok x =>
          obtain ⟨n2, s2⟩ := x
          rw [hc, Res.ok_bind] at h
          cases h
          obtain ⟨h1, h2, h3⟩ := ih _ _ _ _ (fun b v g => ho b v (List.mem_cons_of_mem _ g)) hc
          refine ⟨h1, h2, h3.trans ?_⟩
          dsimp only
          generalize t.take (if buf.len < t.length then buf.len else t.length) = src at hm
          unfold memcpyTo at hm
          by_cases g : buf.str + src.length ≤ s.mem.length
          · rw [if_pos g] at hm
            cases hm
            simp only [List.length_append, List.length_take, List.length_drop]
            omega
          · rw [if_neg g] at hm
            by_cases g0 : src.length = 0
            · rw [if_pos g0] at hm; cases hm; rfl
            · rw [if_neg g0] at hm; cases hm
        | _ => rw [hc] at h; cases h
      | _ => rw [hm] at h; cases h

theorem resize_WF {grow : Nat → Nat} {s : Cont} (n : Nat) (hs : WF s) : WF (s.resize grow n) ∧ (s.resize grow n).term = s.term := by
  by_cases h : s.size ≤ n
  · obtain ⟨s', e, -, h2, h3, -⟩ := resize_grow (grow := grow) (s := s) (n := n) hs h
    rw [e]
    exact ⟨h3, h2⟩
  · have hs' := hs
    unfold WF at hs'
    unfold Cont.resize
    rw [if_pos (show n ≤ s.cap by unfold Cont.cap; omega)]
    refine ⟨?_, rfl⟩
    unfold WF
    dsimp only
    rw [if_neg (show ¬ n > s.size by omega)]
    cases ht : s.term <;> rw [ht] at hs'
    · simp only [Bool.toNat_false] at hs' ⊢
      simp
      omega
    · simp only [Bool.toNat_true] at hs' ⊢
      simp
      omega

theorem catrs_ext_WF (dbg : Bool) (grow : Nat → Nat) (args : List Arg) (ho : ∀ b v, Arg.own b v ∉ args) : ∀ (f : Nat) (s s' : Cont), WF s → catrs dbg grow args f s = .ok s' →
    WF s' ∧ s'.term = s.term := by
  intro f
  induction f with
  | zero => intro s s' _ h; cases h
  | succ f ih =>
    intro s s' hs h
    unfold catrs at h
    dsimp only at h
    cases hc : cat dbg s ⟨0, s.size⟩ args with
    | ok x =>
      obtain ⟨n, s1⟩ := x
      rw [hc, Res.ok_bind] at h
      dsimp only at h
      obtain ⟨h1, h2, h3⟩ := cat_ext_same dbg args _ _ _ _ ho hc
      have hw : WF s1 := by unfold WF at hs ⊢; rw [h1, h2, h3]; exact hs
      obtain ⟨g1, g2⟩ := resize_WF (grow := grow) n hw
      split at h
      · obtain ⟨k1, k2⟩ := ih _ _ g1 h
        exact ⟨k1, k2.trans (g2.trans h2)⟩
      · cases h
        exact ⟨g1, g2.trans h2⟩
    | _ => rw [hc] at h; cases h

theorem read_value {env : Nat → Cont} {T : Nat → List Nat} (he : ∀ i, content (env i) = T i) (hw : ∀ i, WF (env i)) {a : NewArg} {t : List Nat} (h : Value T a t) :
    a.read env = .ok (.ext t) := by
  cases h with
  | txt => rfl
  | @of i pre t post h =>
    have hc := he i
    rw [h] at hc
    have hw' := hw i
    unfold WF at hw'
    have hl : (env i).size = pre.length + t.length + post.length := by
      have := congrArg List.length hc
      unfold content at this
      simp only [List.length_take, List.length_append] at this
      omega
    unfold NewArg.read
    dsimp only
    rw [if_pos (by omega)]
    have hm : (env i).mem = pre ++ t ++ post ++ (env i).mem.drop (env i).size := by
      conv => lhs; rw [← List.take_append_drop (env i).size (env i).mem]
      unfold content at hc
      rw [hc]
    rw [hm, List.append_assoc, List.append_assoc, List.drop_left, List.take_left]

theorem readAll_values {env : Nat → Cont} {T : Nat → List Nat} (he : ∀ i, content (env i) = T i) (hw : ∀ i, WF (env i)) {as : List NewArg} {ts : List (List Nat)} (h : Values T as ts) :
    readAll env as = .ok (ts.map .ext) := by
  induction h with
  | nil => rfl
  | cons h1 _ ih =>
    unfold readAll
    rw [read_value he hw h1, Res.ok_bind, ih, Res.ok_bind]
    rfl

theorem newCont_WF (term : Bool) (cap : Nat) : WF (newCont term cap) := by
  unfold WF newCont
  simp

theorem map_ext_text (ts : List (List Nat)) : (ts.map Arg.ext).map (argText []) = ts := by
  rw [List.map_map]
  conv => rhs; rw [← List.map_id ts]
  exact List.map_congr_left fun t _ => rfl

theorem no_own (ts : List (List Nat)) (b : Nat) (v : View) : Arg.own b v ∉ ts.map Arg.ext := by
  intro h
  obtain ⟨t, -, ht⟩ := List.mem_map.1 h
  cases ht

theorem no_own_sep (t : List Nat) : ∀ (ts : List (List Nat)) (b : Nat) (v : View), Arg.own b v ∉ withSep (.ext t) (ts.map .ext)
  | [], b, v => by simp [withSep]
  | [x], b, v => by simp [withSep]
  | x :: y :: r, b, v => by
    have := no_own_sep t (y :: r) b v
    simp only [List.map_cons] at this
    simp [withSep, this]

theorem callNew_gives (dbg : Bool) (grow : Nat → Nat) (term : Bool) (cap f : Nat) {env : Nat → Cont} {T : Nat → List Nat} (he : ∀ i, content (env i) = T i) (hw : ∀ i, WF (env i))
    {c : Call} {out : List Nat} (h : Gives T c out) :
    ∃ s, callNew dbg grow term cap (f + 2) env c = .ok s ∧ content s = out ∧ WF s ∧ s.term = term := by
  have hn := newCont_WF term cap
  have key : ∀ (args : List Arg), (∀ b v, Arg.own b v ∉ args) → ∃ s, catrs dbg grow args (f + 2) (newCont term cap) = .ok s ∧ content s = argsText [] args ∧ WF s ∧ s.term = term := by
    intro args ho
    obtain ⟨s, e, hc⟩ := C174_texts_partial dbg grow _ args hn ho f
    obtain ⟨h1, h2⟩ := catrs_ext_WF dbg grow args ho _ _ _ hn e
    exact ⟨s, e, hc, h1, h2⟩
  cases h with
  | @cat args ts hv =>
    obtain ⟨s, e, hc, hr⟩ := key (ts.map .ext) (no_own ts)
    refine ⟨s, ?_, ?_, hr⟩
    · unfold callNew
      dsimp only
      rw [readAll_values he hw hv, Res.ok_bind, e]
    · rw [hc]
      unfold argsText
      rw [List.flatMap_def, map_ext_text]
  | @catsep sep args t ts h1 hv =>
    obtain ⟨s, e, hc, hr⟩ := key _ (no_own_sep t ts)
    refine ⟨s, ?_, ?_, hr⟩
    · unfold callNew
      dsimp only
      rw [read_value he hw h1, Res.ok_bind, readAll_values he hw hv, Res.ok_bind]
      exact (overwrite_catrs (fun s buf => catsep_cat dbg _ _ s buf) _ _).trans e
    · rw [hc, argsText_withSep, map_ext_text]
      rfl
  | @format fmt args t ts out h1 hv hs =>
    obtain ⟨ps, hp⟩ := Pieces.exist (ts.map .ext) t
    obtain ⟨s, e, hc, hr⟩ := key ps (fun b v g => no_own ts b v (hp.own b v g))
    refine ⟨s, ?_, ?_, hr⟩
    · unfold callNew
      dsimp only
      rw [read_value he hw h1, Res.ok_bind, readAll_values he hw hv, Res.ok_bind]
      exact (overwrite_catrs (fun s buf => format_ext dbg hp s buf) _ _).trans e
    · rw [hc]
      have := hp.subst (m := [])
      rw [map_ext_text] at this
      exact this.unique hs

/-- **C181**: a program that assigns to containers what `catrs`, `catseprs` and `formatrs` return, with views of any of the containers among the arguments, the
separators and the format texts: afterwards each container has the text it should have, whatever the capacities and the growth, with or without assertions. -/
theorem C181_texts (dbg : Bool) (grow : Nat → Nat) (cap f : Nat) (prog : List (Nat × Call)) (env : Nat → Cont) (T T' : Nat → List Nat)
    (he : ∀ i, content (env i) = T i) (hw : ∀ i, WF (env i)) (h : Texts T prog T') :
    ∃ env', runNew dbg grow cap (f + 2) prog env = .ok env' ∧ ∀ i, content (env' i) = T' i ∧ WF (env' i) ∧ (env' i).term = (env i).term := by
  induction h generalizing env with
  | nil => exact ⟨env, rfl, fun i => ⟨he i, hw i, rfl⟩⟩
  | @cons T T' i c out r h1 _ ih =>
    obtain ⟨s, e, h2, h3, h4⟩ := callNew_gives dbg grow (env i).term cap f he hw h1
    obtain ⟨env', e', h'⟩ := ih (fun j => if j = i then s else env j) (fun j => by dsimp only; split; exacts [h2, he j]) (fun j => by split; exacts [h3, hw j])
    refine ⟨env', ?_, fun j => ⟨(h' j).1, (h' j).2.1, ?_⟩⟩
    · unfold runNew
      rw [e, Res.ok_bind, e']
    · rw [(h' j).2.2]
      split
      · subst_vars; exact h4
      · rfl

/-- **C181**: every call with views inside of their containers gives a text, and only one. -/
theorem C181_one (T : Nat → List Nat) (c : Call) (as : List NewArg) (hc : c = .cat as ∨ (∃ x xs, c = .catsep x xs ∧ as = x :: xs) ∨ ∃ x xs, c = .format x xs ∧ as = x :: xs)
    (h : ∀ i a n, NewArg.of i a n ∈ as → a + n ≤ (T i).length) : ∃ out, Gives T c out ∧ ∀ out', Gives T c out' → out' = out := by
  have ex1 : ∀ x ∈ as, ∃ t, Value T x t := by
    intro x hx
    cases x with
    | txt t => exact ⟨t, .txt⟩
    | of i a n =>
      have hl := h i a n hx
      have hv : Value T (.of i ((T i).take a).length (((T i).drop a).take n).length) (((T i).drop a).take n) := .of (post := ((T i).drop a).drop n) (by
        rw [List.append_assoc, List.take_append_drop, List.take_append_drop])
      rw [List.length_take, List.length_take, List.length_drop, Nat.min_eq_left (by omega), Nat.min_eq_left (by omega)] at hv
      exact ⟨_, hv⟩
  have ex : ∀ xs : List NewArg, (∀ x ∈ xs, x ∈ as) → ∃ ts, Values T xs ts := by
    intro xs
    induction xs with
    | nil => exact fun _ => ⟨[], .nil⟩
    | cons x xs ih =>
      intro hm
      obtain ⟨t, ht⟩ := ex1 x (hm x (by simp))
      obtain ⟨ts, hts⟩ := ih fun y hy => hm y (by simp [hy])
      exact ⟨_, .cons ht hts⟩
  have un1 : ∀ {x t t'}, Value T x t → Value T x t' → t' = t := by
    intro x t t' h1 h2
    generalize hx : x = y at h2
    cases h1 with
    | txt => cases h2 <;> cases hx; rfl
    | @of i pre t post e =>
      cases h2 with
      | txt => cases hx
      | @of i' pre' t' post' e' =>
        injection hx with h1 h2 h3
        subst h1
        rw [e, List.append_assoc, List.append_assoc] at e'
        obtain ⟨-, e2⟩ := List.append_inj e' h2
        exact (List.append_inj e2 h3).1.symm
  have un : ∀ {xs ts ts'}, Values T xs ts → Values T xs ts' → ts' = ts := by
    intro xs ts ts' h1
    induction h1 generalizing ts' with
    | nil => intro h2; cases h2; rfl
    | cons a _ ih => intro h2; cases h2 with | cons b c => rw [un1 a b, ih c]
  rcases hc with rfl | ⟨x, xs, rfl, rfl⟩ | ⟨x, xs, rfl, rfl⟩
  · obtain ⟨ts, hts⟩ := ex as fun _ hx => hx
    exact ⟨_, .cat hts, fun out' h' => by cases h' with | cat g => rw [un hts g]⟩
  · obtain ⟨t, ht⟩ := ex1 x (by simp)
    obtain ⟨ts, hts⟩ := ex xs fun y hy => by simp [hy]
    exact ⟨_, .catsep ht hts, fun out' h' => by cases h' with | catsep g1 g2 => rw [un1 ht g1, un hts g2]⟩
  · obtain ⟨t, ht⟩ := ex1 x (by simp)
    obtain ⟨ts, hts⟩ := ex xs fun y hy => by simp [hy]
    obtain ⟨ps, hp⟩ := Pieces.exist (ts.map .ext) t
    have hs := hp.subst (m := [])
    rw [map_ext_text] at hs
    exact ⟨_, .format ht hts hs, fun out' h' => by cases h' with | format g1 g2 g3 => rw [un1 ht g1] at g3; rw [un hts g2] at g3; exact g3.unique hs⟩

theorem read_cases (env : Nat → Cont) (a : NewArg) : (∃ x, a.read env = .ok x) ∨ a.read env = .ub := by
  cases a with
  | txt t => exact .inl ⟨_, rfl⟩
  | of i a n =>
    unfold NewArg.read
    dsimp only
    split
    · exact .inl ⟨_, rfl⟩
    · exact .inr rfl

theorem readAll_outside (env : Nat → Cont) {as : List NewArg} {i a n : Nat} (hm : NewArg.of i a n ∈ as) (h : (env i).size < a + n) : readAll env as = .ub := by
  induction as with
  | nil => cases hm
  | cons x xs ih =>
    unfold readAll
    rcases read_cases env x with ⟨y, hy⟩ | hx
    · rcases List.mem_cons.1 hm with rfl | hm
      · unfold NewArg.read at hy
        dsimp only at hy
        rw [if_neg (by omega)] at hy
        cases hy
      · rw [hy, Res.ok_bind, ih hm]; rfl
    · rw [hx]; rfl

/-- **C181**, views that are not inside of their container: undefined. -/
theorem C181_outside (dbg : Bool) (grow : Nat → Nat) (term : Bool) (cap f : Nat) (env : Nat → Cont) (c : Call) (as : List NewArg)
    (hc : c = .cat as ∨ (∃ x xs, c = .catsep x xs ∧ as = x :: xs) ∨ ∃ x xs, c = .format x xs ∧ as = x :: xs)
    (i a n : Nat) (hm : NewArg.of i a n ∈ as) (h : (content (env i)).length < a + n) (hw : WF (env i)) : callNew dbg grow term cap f env c = .ub := by
  have h : (env i).size < a + n := by
    unfold content at h
    unfold WF at hw
    rw [List.length_take] at h
    omega
  have key : ∀ {α : Type} (x : NewArg) (xs : List NewArg) (k : Arg → List Arg → Res α), NewArg.of i a n ∈ x :: xs → (do let y ← x.read env; let ys ← readAll env xs; k y ys) = .ub := by
    intro α x xs k hm
    rcases read_cases env x with ⟨y, hy⟩ | hx
    · rcases List.mem_cons.1 hm with rfl | hm
      · unfold NewArg.read at hy
        dsimp only at hy
        rw [if_neg (by omega)] at hy
        cases hy
      · rw [hy, Res.ok_bind, readAll_outside env hm h]; rfl
    · rw [hx]; rfl
  rcases hc with rfl | ⟨x, xs, rfl, rfl⟩ | ⟨x, xs, rfl, rfl⟩
  · unfold callNew
    dsimp only
    rw [readAll_outside env hm h]; rfl
  · exact key x xs _ hm
  · exact key x xs _ hm

/-- x = catrs<std::string>(x.sub(1, 2), "-", x); the same container as the argument and as the one assigned. -/
example : Texts (fun _ => S "abc") [(0, .cat [.of 0 1 2, .txt (S "-"), .of 0 0 3])] (fun j => if j = 0 then S "bc-abc" else S "abc") :=
  .cons (.cat (ts := [S "bc", S "-", S "abc"]) (.cons (.of (pre := S "a") (t := S "bc") (post := []) rfl) (.cons .txt (.cons (.of (pre := []) (t := S "abc") (post := []) rfl) .nil)))) .nil
example : WF ⟨true, 0, S "abc\x00", 3⟩ ∧ (callNew true (fun n => n) true 2 2 (fun _ => ⟨true, 0, S "abc\x00", 3⟩) (.format (.txt (S "<{}>")) [.of 5 1 2])) = .ok ⟨true, 1, S "<bc>\x00", 4⟩ :=
  ⟨by unfold WF; decide, by decide +kernel⟩

end C4.Alias
