import Verif.AliasFormat
import Verif.Props.Alias
import Verif.Props.Format
/-
Properties C179 and C180: catsep and format with views of the container that gets the result.
-/
namespace C4.Alias
open C4.Spec
open Spec (Has Shares Inside In text place content WF argText argsText Own Ahead Behind outText)

/-! ### Specification -/

/-- The arguments with the separator between consecutive ones. -/
def Spec.withSep (sep : Arg) : List Arg → List Arg
  | [] => []
  | [a] => [a]
  | a :: b :: r => a :: sep :: withSep sep (b :: r)

/-- `ps` are the pieces of which the result of a format text consists, in order: its parts outside of the marks that got an argument, and the arguments that have a mark. -/
inductive Spec.Pieces : List Nat → List Arg → List Arg → Prop
  | noargs {fmt} : Pieces fmt [] [.ext fmt]
  | nomark {fmt args} : (∀ i, ¬ OccursAt fmt mark i) → Pieces fmt args [.ext fmt]
  | step {pre post a args ps} : (∀ i, i < pre.length → ¬ OccursAt (pre ++ mark ++ post) mark i) →
      Pieces post args ps → Pieces (pre ++ mark ++ post) (a :: args) (.ext pre :: a :: ps)

open Spec (withSep Pieces)

/-- The pieces together are the format text with the texts of the arguments substituted. -/
theorem Spec.Pieces.subst {m : List Nat} {fmt : List Nat} {args ps : List Arg} (h : Pieces fmt args ps) : Subst fmt (args.map (argText m)) (argsText m ps) := by
  induction h with
  | noargs => simp only [argsText, argText, List.flatMap_cons, List.flatMap_nil, List.append_nil]; exact .noargs
  | nomark h => simp only [argsText, argText, List.flatMap_cons, List.flatMap_nil, List.append_nil]; exact .nomark h
  | step h _ ih =>
    rw [argsText_cons, argsText_cons, ← List.append_assoc]
    exact .step h ih

/-- All pieces are parts of the format text or arguments. -/
theorem Spec.Pieces.own {fmt : List Nat} {args ps : List Arg} (h : Pieces fmt args ps) : ∀ b v, Arg.own b v ∈ ps → Arg.own b v ∈ args := by
  induction h with
  | noargs => intro b v h; simp at h
  | nomark h => intro b v h; simp at h
  | step h _ ih =>
    intro b v hm
    rcases List.mem_cons.1 hm with hm | hm
    · cases hm
    · rcases List.mem_cons.1 hm with hm | hm
      · rw [hm]; exact List.mem_cons_self
      · exact List.mem_cons_of_mem _ (ih b v hm)

/-- Every format text has its pieces. -/
theorem Spec.Pieces.exist : ∀ (args : List Arg) (fmt : List Nat), ∃ ps, Pieces fmt args ps := by
  intro args
  induction args with
  | nil => exact fun fmt => ⟨_, .noargs⟩
  | cons a as ih =>
    intro fmt
    obtain ⟨r, e, h1, h2⟩ := C29_find fmt [123, 125] 0
    cases r with
    | none => exact ⟨_, .nomark fun i => (h2.mp rfl) i (Nat.zero_le _)⟩
    | some k =>
      obtain ⟨_, ⟨pre, post, e1, e2⟩, h3⟩ := (h1 k).mp rfl
      change fmt = pre ++ mark ++ post at e1
      obtain ⟨ps, hps⟩ := ih post
      subst e1
      exact ⟨_, .step (fun i hi => h3 i (Nat.zero_le _) (by omega)) hps⟩

theorem separated_cons (sep a : List Nat) (r : List (List Nat)) : separated sep (a :: r) = a ++ r.flatMap (fun x => sep ++ x) := by
  induction r generalizing a with
  | nil => simp [separated]
  | cons b r ih => rw [separated, ih, List.flatMap_cons]; simp

theorem withSep_cons (sep a : Arg) (r : List Arg) : withSep sep (a :: r) = a :: r.flatMap (fun x => [sep, x]) := by
  induction r generalizing a with
  | nil => rfl
  | cons b r ih => rw [withSep, ih, List.flatMap_cons]; rfl

/-- The texts of the arguments with the separator between them. -/
theorem argsText_withSep (m : List Nat) (sep : Arg) (args : List Arg) : argsText m (withSep sep args) = separated (argText m sep) (args.map (argText m)) := by
  cases args with
  | nil => rfl
  | cons a r =>
    rw [withSep_cons, argsText_cons, List.map_cons, separated_cons]
    congr 1
    induction r with
    | nil => rfl
    | cons b r ih => rw [List.flatMap_cons, List.map_cons, List.flatMap_cons, ← ih]; simp [argsText]

/-! ### Lemmas -/

theorem cat_cons (dbg : Bool) (s : Cont) (buf : View) (a : Arg) (as : List Arg) :
    cat dbg s buf (a :: as) = (argToChars dbg s buf a >>= fun x => cat dbg x.2 (restOf buf x.1) as >>= fun y => .ok (x.1 + y.1, y.2)) := rfl

theorem cat_single (dbg : Bool) (s : Cont) (buf : View) (a : Arg) : cat dbg s buf [a] = argToChars dbg s buf a := by
  rw [cat_cons]
  cases argToChars dbg s buf a <;> rfl

theorem catsepMore_cat (dbg : Bool) (sep : Arg) : ∀ (args : List Arg) (s : Cont) (buf : View), catsepMore dbg sep s buf args = cat dbg s buf (args.flatMap fun x => [sep, x]) := by
  intro args
  induction args with
  | nil => intro s buf; rfl
  | cons a as ih =>
    intro s buf
    rw [List.flatMap_cons]
    show _ = cat dbg s buf (sep :: a :: as.flatMap fun x => [sep, x])
    unfold catsepMore
    rw [cat_cons]
    cases argToChars dbg s buf sep with
    | ok x =>
      rw [Res.ok_bind, Res.ok_bind, cat_cons]
      dsimp only
      cases argToChars dbg x.2 (restOf buf x.1) a with
      | ok y =>
        rw [Res.ok_bind, Res.ok_bind, ih]
        cases cat dbg y.2 (restOf (restOf buf x.1) y.1) (as.flatMap fun x => [sep, x]) with
        | ok z => simp only [Res.ok_bind, Nat.add_assoc]
        | _ => rfl
      | _ => rfl
    | _ => rfl

theorem catsep_cat (dbg : Bool) (sep : Arg) (args : List Arg) (s : Cont) (buf : View) : catsep dbg sep s buf args = cat dbg s buf (withSep sep args) := by
  cases args with
  | nil => rfl
  | cons a as =>
    rw [withSep_cons, cat_cons]
    unfold catsep
    simp only [catsepMore_cat]

theorem mark_find {pre post : List Nat} (h : ∀ i, i < pre.length → ¬ OccursAt (pre ++ mark ++ post) mark i) :
    findS (pre ++ mark ++ post) [123, 125] 0 = .ok (some pre.length) := by
  obtain ⟨r, e, h1, _⟩ := C29_find (pre ++ mark ++ post) [123, 125] 0
  rw [e, (h1 pre.length).mpr ⟨Nat.zero_le _, occurs_pre pre post, fun i _ hi => h i hi⟩]

theorem nomark_find {fmt : List Nat} (h : ∀ i, ¬ OccursAt fmt mark i) : findS fmt [123, 125] 0 = .ok none := by
  obtain ⟨r, e, _, h2⟩ := C29_find fmt [123, 125] 0
  rw [e, h2.mpr fun i _ => h i]

theorem mark_len (pre post : List Nat) : (pre ++ mark ++ post).length = pre.length + 2 + post.length := by simp [mark]; omega

theorem mark_drop (pre post : List Nat) : (pre ++ mark ++ post).drop (pre.length + 2) = post := List.drop_left' (by simp [mark])

theorem mark_take (pre post : List Nat) : (pre ++ mark ++ post).take pre.length = pre := by
  rw [List.append_assoc, List.take_left' rfl]

/-- The text of the argument can be read. -/
def Readable (s : Cont) (a : Arg) : Prop := ∀ b v, a = .own b v → (b = s.blk ∧ In s.mem v) ∨ (b ≠ s.blk ∧ v.len = 0)

theorem Readable.len {s : Cont} {a : Arg} (h : Readable s a) : a.len = (argText s.mem a).length := by
  cases a with
  | ext t => rfl
  | own b v =>
    rcases h b v rfl with ⟨_, h⟩ | ⟨_, h⟩
    · exact (text_length h).symm
    · show v.len = (text s.mem v).length
      unfold text; rw [h]; rfl

theorem findMark_some {s : Cont} {fmt : Arg} {pre post : List Nat} (hr : Readable s fmt) (ht : argText s.mem fmt = pre ++ mark ++ post)
    (h : ∀ i, i < pre.length → ¬ OccursAt (pre ++ mark ++ post) mark i) : findMark s fmt = .ok (some pre.length) := by
  have hl := hr.len
  rw [ht, mark_len] at hl
  cases fmt with
  | ext t => change t = _ at ht; rw [ht]; exact mark_find h
  | own b v =>
    change v.len = _ at hl
    change text s.mem v = _ at ht
    unfold findMark
    dsimp only
    rw [if_neg (by omega), if_pos (by rcases hr b v rfl with h | h; exact h.1; omega)]
    show findS (text s.mem v) _ _ = _
    rw [ht]; exact mark_find h

theorem findMark_none {s : Cont} {fmt : Arg} (hr : Readable s fmt) (h : ∀ i, ¬ OccursAt (argText s.mem fmt) mark i) : findMark s fmt = .ok none := by
  cases fmt with
  | ext t => exact nomark_find h
  | own b v =>
    unfold findMark
    dsimp only
    split
    · rfl
    · rw [if_pos (by rcases hr b v rfl with h | h; exact h.1; omega)]
      exact nomark_find h

theorem format_some (dbg : Bool) {s : Cont} {buf : View} {fmt a : Arg} {as : List Arg} {pos : Nat} (h : findMark s fmt = .ok (some pos)) :
    format dbg s buf fmt (a :: as) = (argToChars dbg s buf (fmt.sub 0 pos) >>= fun x => argToChars dbg x.2 (restOf buf x.1) a >>= fun y =>
      format dbg y.2 (restOf (restOf buf x.1) y.1) (fmt.sub (pos + 2) (fmt.len - (pos + 2))) as >>= fun z => .ok (x.1 + y.1 + z.1, z.2)) := by
  rw [format, h]; rfl

theorem format_none' (dbg : Bool) {s : Cont} {buf : View} {fmt : Arg} {as : List Arg} (h : findMark s fmt = .ok none) :
    format dbg s buf fmt as = argToChars dbg s buf fmt := by
  cases as with
  | nil => rfl
  | cons a as => unfold format; rw [h]; rfl

theorem sub_pre {m : List Nat} {fmt : Arg} {pre post : List Nat} (ht : argText m fmt = pre ++ mark ++ post) : argText m (fmt.sub 0 pre.length) = pre := by
  cases fmt with
  | ext t => change t = _ at ht; show (t.drop 0).take _ = _; rw [List.drop_zero, ht, mark_take]
  | own b v =>
    change text m v = _ at ht
    have hl : pre.length ≤ v.len := by
      have := congrArg List.length ht
      rw [mark_len] at this
      unfold text at this
      simp at this; omega
    show text m ⟨v.str + 0, pre.length⟩ = _
    rw [Nat.add_zero, text_sub hl, ht, mark_take]

theorem sub_post {s : Cont} {fmt : Arg} {pre post : List Nat} (hr : Readable s fmt) (ht : argText s.mem fmt = pre ++ mark ++ post) :
    argText s.mem (fmt.sub (pre.length + 2) (fmt.len - (pre.length + 2))) = post := by
  have hl := hr.len
  rw [ht, mark_len] at hl
  rw [hl, show pre.length + 2 + post.length - (pre.length + 2) = post.length from by omega]
  cases fmt with
  | ext t => change t = _ at ht; show (t.drop _).take _ = _; rw [ht, mark_drop, List.take_length]
  | own b v =>
    change v.len = _ at hl
    change text s.mem v = _ at ht
    show text s.mem ⟨v.str + (pre.length + 2), post.length⟩ = _
    have : (text s.mem v).drop (pre.length + 2) = post := by rw [ht, mark_drop]
    unfold text at this ⊢
    rw [List.drop_take, List.drop_drop, hl, show pre.length + 2 + post.length - (pre.length + 2) = post.length from by omega] at this
    exact this

/-- A format text elsewhere: the pieces are written one after the other. -/
theorem format_ext (dbg : Bool) {fmt : List Nat} {args ps : List Arg} (h : Pieces fmt args ps) : ∀ (s : Cont) (buf : View), format dbg s buf (.ext fmt) args = cat dbg s buf ps := by
  have hr : ∀ (s : Cont) (t : List Nat), Readable s (.ext t) := fun s t b v h => by cases h
  induction h with
  | noargs => intro s buf; rw [cat_single]; rfl
  | @nomark fmt args h =>
    intro s buf
    rw [cat_single]
    exact format_none' dbg (findMark_none (hr _ _) h)
  | @step pre post a args ps h _ ih =>
    intro s buf
    have ht : argText s.mem (.ext (pre ++ mark ++ post)) = pre ++ mark ++ post := rfl
    have e1 : (Arg.ext (pre ++ mark ++ post)).sub 0 pre.length = .ext pre := congrArg Arg.ext (sub_pre ht)
    have e2 : (Arg.ext (pre ++ mark ++ post)).sub (pre.length + 2) ((Arg.ext (pre ++ mark ++ post)).len - (pre.length + 2)) = .ext post := congrArg Arg.ext (sub_post (hr s _) ht)
    rw [format_some dbg (findMark_some (hr s _) ht h), e1, e2, cat_cons]
    cases argToChars dbg s buf (.ext pre) with
    | ok x =>
      rw [Res.ok_bind, Res.ok_bind, cat_cons]
      cases argToChars dbg x.2 (restOf buf x.1) a with
      | ok y =>
        rw [Res.ok_bind, Res.ok_bind, ih]
        cases cat dbg y.2 (restOf (restOf buf x.1) y.1) ps with
        | ok z => simp only [Res.ok_bind, Nat.add_assoc]
        | _ => rfl
      | _ => rfl
    | _ => rfl

/-- Nothing is written to an empty buffer; the size needed is returned. -/
theorem format_none (dbg : Bool) {s : Cont} (hs : WF s) {p : Nat} (hps : s.size ≤ p) {t : List Nat} {args ps : List Arg} (h : Pieces t args ps) : ∀ (fmt : Arg) (buf : View),
    argText s.mem fmt = t → Own s [fmt] → Own s args → buf.len = 0 → buf.str = 0 ∨ buf.str = p → format dbg s buf fmt args = .ok ((argsText s.mem ps).length, s) := by
  have hread : ∀ fmt, Own s [fmt] → Readable s fmt := by
    intro fmt h b v e
    obtain ⟨h1, h2⟩ := h b v (by rw [e]; exact List.mem_cons_self)
    exact Or.inl ⟨h1, by unfold In; unfold WF at hs; omega⟩
  have hone : ∀ fmt buf, Own s [fmt] → buf.len = 0 → buf.str = 0 ∨ buf.str = p → argToChars dbg s buf fmt = .ok ((argsText s.mem [.ext (argText s.mem fmt)]).length, s) := by
    intro fmt buf ho h0 hp
    rw [arg_none dbg hs h0 hp hps ho]
    simp [argsText, argText]
  have hrest : ∀ (buf : View) n, buf.len = 0 → buf.str = 0 ∨ buf.str = p → (restOf buf n).len = 0 ∧ ((restOf buf n).str = 0 ∨ (restOf buf n).str = p) := by
    intro buf n h0 hp
    unfold restOf
    split
    · exact ⟨by dsimp only; omega, by dsimp only; omega⟩
    · exact ⟨rfl, Or.inl rfl⟩
  induction h with
  | noargs => intro fmt buf ht ho _ h0 hp; subst ht; exact hone fmt buf ho h0 hp
  | nomark h =>
    intro fmt buf ht ho _ h0 hp
    subst ht
    rw [format_none' dbg (findMark_none (hread _ ho) h)]
    exact hone fmt buf ho h0 hp
  | @step pre post a args ps h _ ih =>
    intro fmt buf ht ho hargs h0 hp
    have hsub : ∀ i n, i + n ≤ fmt.len → Own s [fmt.sub i n] := by
      intro i n hin b v hm
      cases fmt with
      | ext t => cases List.mem_singleton.1 hm
      | own b' v' =>
        obtain ⟨h1, h2⟩ := ho b' v' List.mem_cons_self
        cases List.mem_singleton.1 hm
        change i + n ≤ v'.len at hin
        exact ⟨h1, by dsimp only; omega⟩
    have hl := (hread _ ho).len
    rw [ht, mark_len] at hl
    rw [format_some dbg (findMark_some (hread _ ho) ht h), arg_none dbg hs h0 hp hps (hsub 0 pre.length (by omega)), Res.ok_bind, sub_pre ht]
    dsimp only
    obtain ⟨g0, gp⟩ := hrest buf pre.length h0 hp
    rw [arg_none dbg hs g0 gp hps (fun b v hm => hargs b v (by rw [List.mem_singleton.1 hm]; exact List.mem_cons_self)), Res.ok_bind]
    dsimp only
    obtain ⟨k0, kp⟩ := hrest _ (argText s.mem a).length g0 gp
    rw [ih _ _ (sub_post (hread _ ho) ht) (hsub _ _ (by omega)) (fun b v hm => hargs b v (List.mem_cons_of_mem _ hm)) k0 kp, Res.ok_bind, argsText_cons, argsText_cons]
    simp only [argText, List.length_append, Nat.add_assoc]

/-- A buffer of the size needed, after all views, gets the pieces one after the other. -/
theorem format_fill (dbg : Bool) {t : List Nat} {args ps : List Arg} (h : Pieces t args ps) : ∀ (s : Cont) (fmt : Arg) (p L : Nat), argText s.mem fmt = t →
    (argsText s.mem ps).length ≤ L → p + L ≤ s.mem.length → Before s p [fmt] → Before s p ps →
    format dbg s ⟨p, L⟩ fmt args = .ok ((argsText s.mem ps).length, { s with mem := place s.mem p (argsText s.mem ps) }) := by
  have hread : ∀ (s : Cont) p fmt, p ≤ s.mem.length → Before s p [fmt] → Readable s fmt := by
    intro s p fmt hp h b v e
    rcases h b v (by rw [e]; exact List.mem_cons_self) with ⟨h1, h2⟩ | h
    · exact Or.inl ⟨h1, by unfold In; omega⟩
    · exact Or.inr h
  have hone : ∀ (s : Cont) fmt p L, (argsText s.mem [.ext (argText s.mem fmt)]).length ≤ L → p + L ≤ s.mem.length → Before s p [fmt] →
      argToChars dbg s ⟨p, L⟩ fmt = .ok ((argsText s.mem [.ext (argText s.mem fmt)]).length, { s with mem := place s.mem p (argsText s.mem [.ext (argText s.mem fmt)]) }) := by
    intro s fmt p L hL hp hb
    have e : argsText s.mem [.ext (argText s.mem fmt)] = argText s.mem fmt := by simp [argsText, argText]
    rw [e] at hL ⊢
    exact arg_fill dbg hL hp hb
  induction h with
  | noargs => intro s fmt p L ht hL hp hb _; subst ht; exact hone s fmt p L hL hp hb
  | nomark h =>
    intro s fmt p L ht hL hp hb _
    subst ht
    rw [format_none' dbg (findMark_none (hread s p _ (by omega) hb) h)]
    exact hone s fmt p L hL hp hb
  | @step pre post a args ps h _ ih =>
    intro s fmt p L ht hL hp hb hps
    have hr := hread s p _ (by omega) hb
    have hl := hr.len
    rw [ht, mark_len] at hl
    have hsub : ∀ (s' : Cont) q i n, s'.blk = s.blk → p ≤ q → i + n ≤ fmt.len → Before s' q [fmt.sub i n] := by
      intro s' q i n e hq hin b v hm
      cases fmt with
      | ext t => cases List.mem_singleton.1 hm
      | own b' v' =>
        change v'.len = _ at hl
        change i + n ≤ v'.len at hin
        obtain ⟨rfl, rfl⟩ := Arg.own.inj (List.mem_singleton.1 hm)
        rcases hb b v' List.mem_cons_self with ⟨h1, h2⟩ | ⟨h1, h2⟩
        · exact Or.inl ⟨by rw [e]; exact h1, by dsimp only; omega⟩
        · omega
    have hfmt : ∀ u : List Nat, argText (place s.mem p u) fmt = argText s.mem fmt := by
      intro u
      cases fmt with
      | ext t => rfl
      | own b' v' =>
        change v'.len = _ at hl
        rcases hb b' v' List.mem_cons_self with ⟨h1, h2⟩ | ⟨h1, h2⟩
        · exact text_place_before h2 (by omega)
        · omega
    have hargs : ∀ u : List Nat, ∀ x ∈ a :: ps, argText (place s.mem p u) x = argText s.mem x := by
      intro u x hx
      cases x with
      | ext t => rfl
      | own b v =>
        rcases hps b v (List.mem_cons_of_mem _ hx) with ⟨_, h2⟩ | ⟨_, h2⟩
        · exact text_place_before h2 (by omega)
        · show text _ v = text _ v
          unfold text; rw [h2]; rfl
    have hpst : ∀ u : List Nat, argsText (place s.mem p u) ps = argsText s.mem ps := by
      intro u
      unfold argsText
      rw [List.flatMap_def, List.flatMap_def, List.map_congr_left (fun x hx => hargs u x (List.mem_cons_of_mem _ hx))]
    rw [argsText_cons, argsText_cons, List.length_append, List.length_append] at hL
    change pre.length + _ ≤ L at hL
    rw [format_some dbg (findMark_some hr ht h)]
    have st1 := arg_fill dbg (s := s) (p := p) (L := L) (a := fmt.sub 0 pre.length) (by rw [sub_pre ht]; omega) hp (hsub s p 0 pre.length rfl (Nat.le_refl _) (by omega))
    rw [sub_pre ht] at st1
    rw [st1, Res.ok_bind]
    dsimp only
    have r1 : restOf ⟨p, L⟩ pre.length = ⟨p + pre.length, L - pre.length⟩ := by unfold restOf; rw [if_pos (by dsimp only; omega)]
    have l1 : (place s.mem p pre).length = s.mem.length := place_length (by omega)
    have st2 := arg_fill dbg (s := { s with mem := place s.mem p pre }) (p := p + pre.length) (L := L - pre.length) (a := a) (by dsimp only; rw [hargs pre a List.mem_cons_self]; omega)
      (by dsimp only; omega) (fun b v hm => (hps b v (List.mem_cons_of_mem _ (by rw [List.mem_singleton.1 hm]; exact List.mem_cons_self))).imp (fun h => ⟨h.1, by omega⟩) id)
    dsimp only at st2
    rw [hargs pre a List.mem_cons_self, place_place (by omega)] at st2
    rw [r1, st2, Res.ok_bind]
    dsimp only
    have r2 : restOf ⟨p + pre.length, L - pre.length⟩ (argText s.mem a).length = ⟨p + (pre ++ argText s.mem a).length, L - (pre ++ argText s.mem a).length⟩ := by
      unfold restOf
      rw [if_pos (by dsimp only; omega), List.length_append, Nat.add_assoc, Nat.sub_sub]
    have l2 : (place s.mem p (pre ++ argText s.mem a)).length = s.mem.length := place_length (by rw [List.length_append]; omega)
    have hpre := List.length_append (as := pre) (bs := argText s.mem a)
    have hpost : argText (place s.mem p (pre ++ argText s.mem a)) (fmt.sub (pre.length + 2) (fmt.len - (pre.length + 2))) = post := by
      have hr' : Readable { s with mem := place s.mem p (pre ++ argText s.mem a) } fmt := hread _ p _ (by dsimp only; omega) hb
      exact sub_post (s := { s with mem := place s.mem p (pre ++ argText s.mem a) }) hr' ((hfmt _).trans ht)
    have st3 := ih { s with mem := place s.mem p (pre ++ argText s.mem a) } (fmt.sub (pre.length + 2) (fmt.len - (pre.length + 2))) (p + (pre ++ argText s.mem a).length) (L - (pre ++ argText s.mem a).length)
      hpost (by dsimp only; rw [hpst]; omega) (by dsimp only; omega) (hsub _ _ _ _ rfl (by omega) (by omega))
      (fun b v hm => (hps b v (List.mem_cons_of_mem _ (List.mem_cons_of_mem _ hm))).imp (fun h => ⟨h.1, by omega⟩) id)
    dsimp only at st3
    rw [hpst, place_place (by omega)] at st3
    rw [r2, st3, Res.ok_bind, argsText_cons, argsText_cons]
    simp only [argText, List.length_append, List.append_assoc, Nat.add_assoc]

/-- A format text in a released block, with a destination of the size needed. -/
theorem format_dangling (dbg : Bool) {s : Cont} {t : List Nat} {args ps : List Arg} {b p : Nat} {v : View} {m : List Nat} (h : Pieces t args ps) (ht : t.length = v.len) (hb : b ≠ s.blk) (hv : 0 < v.len) :
    format dbg s ⟨p, (argsText m ps).length⟩ (.own b v) args = .ub := by
  have hone : ∀ n, 0 < n → argToChars dbg s ⟨p, n⟩ (.own b v) = .ub := by
    intro n hn
    unfold argToChars
    dsimp only
    rw [if_neg hb, if_pos (by split <;> omega)]
  have hext : (argsText m [.ext t]).length = t.length := by simp [argsText, argText]
  cases args with
  | nil =>
    have : ps = [.ext t] := by cases h <;> rfl
    rw [this]
    exact hone _ (by omega)
  | cons a as =>
    by_cases h2 : v.len < 2
    · have hf : findMark s (.own b v) = .ok none := by unfold findMark; dsimp only; rw [if_pos h2]
      rw [format_none' dbg hf]
      have : ps = [.ext t] := by
        cases h with
        | nomark => rfl
        | step => rw [mark_len] at ht; omega
      rw [this]
      exact hone _ (by omega)
    · have hf : findMark s (.own b v) = .ub := by unfold findMark; dsimp only; rw [if_neg h2, if_neg hb]
      rw [format, hf]; rfl

/-- Two passes: the first finds the size, the second writes. -/
theorem append_ok {grow : Nat → Nat} {w : Cont → View → Res (Nat × Cont)} {s : Cont} {T : List Nat} (hs : WF s) (f : Nat) (h1 : w s ⟨s.size, 0⟩ = .ok (T.length, s))
    (h2 : ∀ s1 : Cont, s1.size = s.size + T.length → WF s1 → s1.mem.take s.size = s.mem.take s.size → (if s.size + T.length ≤ s.cap then s1.blk = s.blk else s1.blk ≠ s.blk) →
      w s1 ⟨s.size, T.length⟩ = .ok (T.length, { s1 with mem := place s1.mem s.size T })) :
    ∃ s', appendWith grow w (f + 2) s = .ok (⟨s.size, T.length⟩, s') ∧ content s' = content s ++ T ∧ text s'.mem ⟨s.size, T.length⟩ = T := by
  obtain ⟨s1, e1, a1, a2, a3, a4, a5⟩ := resize_grow (grow := grow) hs (n := s.size + T.length) (by omega)
  have a5' : if s.size + T.length ≤ s.cap then s1.blk = s.blk else s1.blk ≠ s.blk := by
    split
    · rename_i h; rw [if_pos h] at a5; exact a5.1
    · rename_i h; rw [if_neg h] at a5; exact a5
  have hw := h2 s1 a1 a3 a4 a5'
  have hlen : s.size ≤ s.mem.length := by unfold WF at hs; omega
  have htext : ∀ s' : Cont, s'.size = s.size + T.length → content s' = content s ++ T → text s'.mem ⟨s.size, T.length⟩ = T := by
    intro s' g1 g2
    unfold content at g2
    unfold text
    dsimp only
    have : (s'.mem.take s'.size).drop s.size = T := by rw [g2, List.drop_left' (by simp; omega)]
    rw [List.drop_take, g1, Nat.add_sub_cancel_left] at this
    exact this
  unfold appendWith appendLoop
  dsimp only
  rw [Nat.sub_self, h1, Res.ok_bind]
  dsimp only
  rw [e1]
  by_cases h0 : T.length > 0
  · rw [if_pos h0]
    unfold WF at a3
    rw [a1] at a3
    unfold appendLoop
    dsimp only
    rw [a1, Nat.add_sub_cancel_left, hw, Res.ok_bind]
    dsimp only
    have hpl := place_length (m := s1.mem) (p := s.size) (t := T) (by omega)
    have hw2 : WF { s1 with mem := place s1.mem s.size T } := by unfold WF; dsimp only; rw [hpl, a1]; exact a3
    rw [resize_shrink hw2 (by dsimp only; omega), if_neg (by omega), Res.ok_bind]
    dsimp only
    rw [Nat.add_sub_cancel_left]
    refine ⟨_, rfl, ?_⟩
    apply (fun hc => ⟨hc, htext _ rfl hc⟩ : ∀ _, _ ∧ _)
    unfold content
    dsimp only
    have ht : (place s1.mem s.size T).take (s.size + T.length) = s.mem.take s.size ++ T := by
      unfold place
      rw [a4, List.take_left' (by simp; omega)]
    split
    · rw [List.take_set, List.set_eq_of_length_le (by simp), ht]
    · exact ht
  · rw [if_neg h0, Res.ok_bind]
    have hnil : T = [] := List.length_eq_zero_iff.1 (by omega)
    rw [hnil] at e1 a1 htext ⊢
    rw [a1, Nat.add_sub_cancel_left]
    refine ⟨_, rfl, ?_⟩
    apply (fun hc => ⟨hc, htext _ a1 hc⟩ : ∀ _, _ ∧ _)
    unfold content
    rw [a1, List.append_nil]
    exact a4

/-- The container moved, and the second pass is undefined. -/
theorem append_ub {grow : Nat → Nat} {w : Cont → View → Res (Nat × Cont)} {s : Cont} {n : Nat} (hs : WF s) (f : Nat) (h1 : w s ⟨s.size, 0⟩ = .ok (n, s)) (h : s.cap < s.size + n)
    (h2 : ∀ s1 : Cont, s1.size = s.size + n → WF s1 → s1.blk ≠ s.blk → w s1 ⟨s.size, n⟩ = .ub) : appendWith grow w (f + 2) s = .ub := by
  obtain ⟨s1, e1, a1, a2, a3, a4, a5⟩ := resize_grow (grow := grow) hs (n := s.size + n) (by omega)
  rw [if_neg (by omega)] at a5
  have h0 : n > 0 := by unfold Cont.cap at h; unfold WF at hs; omega
  unfold appendWith appendLoop
  dsimp only
  rw [Nat.sub_self, h1, Res.ok_bind]
  dsimp only
  rw [e1, if_pos h0]
  unfold appendLoop
  dsimp only
  rw [a1, Nat.add_sub_cancel_left, h2 s1 a1 a3 a5]; rfl

theorem before_of {s s1 : Cont} {args : List Arg} {n : Nat} (ho : Own s args) (hb : if n ≤ s.cap then s1.blk = s.blk else s1.blk ≠ s.blk)
    (h : n ≤ s.cap ∨ ∀ b v, Arg.own b v ∈ args → v.len = 0) : Before s1 s.size args := by
  intro b v hm
  obtain ⟨g1, g2⟩ := ho b v hm
  by_cases hf : n ≤ s.cap
  · rw [if_pos hf] at hb
    exact Or.inl ⟨by rw [hb]; exact g1, g2⟩
  · rw [if_neg hf] at hb
    exact Or.inr ⟨by rw [g1]; exact fun h => hb h.symm, (h.resolve_left hf) b v hm⟩

theorem withSep_mem {sep a : Arg} : ∀ {args : List Arg}, a ∈ withSep sep args → a = sep ∨ a ∈ args := by
  intro args h
  cases args with
  | nil => cases h
  | cons b r =>
    rw [withSep_cons, List.mem_cons, List.mem_flatMap] at h
    rcases h with h | ⟨x, hx, h⟩
    · exact Or.inr (by rw [h]; exact List.mem_cons_self)
    · simp at h
      rcases h with h | h
      · exact Or.inl h
      · exact Or.inr (by rw [h]; exact List.mem_cons_of_mem _ hx)

/-! ### C179: appending -/

/-- **C179** for catseprs_append, what holds: if the capacity suffices for the result, or all views that occur in it are empty, then the texts as they were before the call are appended with the separator between
them, nothing else changes, and the view returned is the part that was appended; with or without assertions.  Missing: not empty views if the capacity does not suffice (false, see below). -/
theorem C179_catsep_partial (dbg : Bool) (grow : Nat → Nat) (s : Cont) (sep : Arg) (args : List Arg) (hs : WF s) (ho : Own s (withSep sep args))
    (h : s.size + (separated (argText s.mem sep) (args.map (argText s.mem))).length ≤ s.cap ∨ ∀ b v, Arg.own b v ∈ withSep sep args → v.len = 0) (f : Nat) :
    ∃ s', catseprsAppend dbg grow sep args (f + 2) s = .ok (⟨s.size, (separated (argText s.mem sep) (args.map (argText s.mem))).length⟩, s') ∧
      content s' = content s ++ separated (argText s.mem sep) (args.map (argText s.mem)) ∧
      text s'.mem ⟨s.size, (separated (argText s.mem sep) (args.map (argText s.mem))).length⟩ = separated (argText s.mem sep) (args.map (argText s.mem)) := by
  rw [← argsText_withSep] at h ⊢
  refine append_ok hs f ?_ fun s1 a1 a3 a4 a5 => ?_
  · rw [catsep_cat]
    exact cat_none dbg hs (Nat.le_refl _) _ _ rfl (Or.inr rfl) ho
  · have hT := argsText_congr a4 (fun b v hm => (ho b v hm).2)
    unfold WF at a3
    have := cat_fill dbg (withSep sep args) s1 s.size (argsText s.mem (withSep sep args)).length (by rw [hT]) (by omega) (before_of ho a5 h)
    rw [hT] at this
    rw [catsep_cat]
    exact this

/-- **C179** for catseprs_append fails: if the capacity does not suffice and a view that occurs in the result is not empty, then it is read after its memory was released. -/
theorem C179_catsep_refuted (dbg : Bool) (grow : Nat → Nat) (s : Cont) (sep : Arg) (args : List Arg) (hs : WF s) (ho : Own s (withSep sep args))
    (h : s.cap < s.size + (separated (argText s.mem sep) (args.map (argText s.mem))).length) (hv : ∃ b v, Arg.own b v ∈ withSep sep args ∧ 0 < v.len) (f : Nat) :
    catseprsAppend dbg grow sep args (f + 2) s = .ub := by
  rw [← argsText_withSep] at h
  refine append_ub hs f (n := (argsText s.mem (withSep sep args)).length) ?_ h fun s1 a1 a3 a5 => ?_
  · rw [catsep_cat]
    exact cat_none dbg hs (Nat.le_refl _) _ _ rfl (Or.inr rfl) ho
  · unfold WF at a3 hs
    rw [catsep_cat]
    refine cat_dangling dbg _ s1 s.mem _ _ rfl (by omega) (fun b v hm => ?_) hv
    obtain ⟨g1, g2⟩ := ho b v hm
    exact ⟨by rw [g1]; exact fun h => a5 h.symm, by unfold In; omega⟩

/-- **C179** for formatrs_append, what holds: if the capacity suffices for the result, or the format text is not a view of the container or empty and the views that occur in the result are empty, then the format text as
it was before the call, with the texts of the arguments as they were before the call, is appended, nothing else changes, and the view returned is the part that was appended; with or without assertions.
Missing: not empty views if the capacity does not suffice (false, see below). -/
theorem C179_format_partial (dbg : Bool) (grow : Nat → Nat) (s : Cont) (fmt : Arg) (args ps : List Arg) (hs : WF s) (ho : Own s (fmt :: args)) (hp : Pieces (argText s.mem fmt) args ps)
    (h : s.size + (argsText s.mem ps).length ≤ s.cap ∨ ∀ b v, Arg.own b v ∈ fmt :: ps → v.len = 0) (f : Nat) :
    Subst (argText s.mem fmt) (args.map (argText s.mem)) (argsText s.mem ps) ∧
    ∃ s', formatrsAppend dbg grow fmt args (f + 2) s = .ok (⟨s.size, (argsText s.mem ps).length⟩, s') ∧ content s' = content s ++ argsText s.mem ps ∧
      text s'.mem ⟨s.size, (argsText s.mem ps).length⟩ = argsText s.mem ps := by
  have hop : Own s (fmt :: ps) := by
    intro b v hm
    rcases List.mem_cons.1 hm with hm | hm
    · exact ho b v (by rw [hm]; exact List.mem_cons_self)
    · exact ho b v (List.mem_cons_of_mem _ (hp.own b v hm))
  have hof : Own s [fmt] := fun b v hm => ho b v (by rw [List.mem_singleton.1 hm]; exact List.mem_cons_self)
  refine ⟨hp.subst, append_ok hs f ?_ fun s1 a1 a3 a4 a5 => ?_⟩
  · exact format_none dbg hs (Nat.le_refl _) hp fmt _ rfl hof (fun b v hm => ho b v (List.mem_cons_of_mem _ hm)) rfl (Or.inr rfl)
  · have hT := argsText_congr a4 (args := ps) (fun b v hm => (hop b v (List.mem_cons_of_mem _ hm)).2)
    have hF : argText s1.mem fmt = argText s.mem fmt := by
      have := argsText_congr a4 (args := [fmt]) (fun b v hm => (hof b v hm).2)
      simpa [argsText] using this
    have hB := before_of hop a5 h
    unfold WF at a3
    have := format_fill dbg hp s1 fmt s.size (argsText s.mem ps).length hF (by rw [hT]) (by omega)
      (fun b v hm => hB b v (by rw [List.mem_singleton.1 hm]; exact List.mem_cons_self)) hB.tail
    rw [hT] at this
    exact this

/-- **C179** for formatrs_append fails: if the capacity does not suffice, and the format text is a view of the container that is not empty, or a view that occurs in the result is not empty, then it is read after its
memory was released. -/
theorem C179_format_refuted (dbg : Bool) (grow : Nat → Nat) (s : Cont) (fmt : Arg) (args ps : List Arg) (hs : WF s) (ho : Own s (fmt :: args)) (hp : Pieces (argText s.mem fmt) args ps)
    (h : s.cap < s.size + (argsText s.mem ps).length) (hv : ∃ b v, Arg.own b v ∈ fmt :: ps ∧ 0 < v.len) (f : Nat) : formatrsAppend dbg grow fmt args (f + 2) s = .ub := by
  have hof : Own s [fmt] := fun b v hm => ho b v (by rw [List.mem_singleton.1 hm]; exact List.mem_cons_self)
  refine append_ub hs f (n := (argsText s.mem ps).length) ?_ h fun s1 a1 a3 a5 => ?_
  · exact format_none dbg hs (Nat.le_refl _) hp fmt _ rfl hof (fun b v hm => ho b v (List.mem_cons_of_mem _ hm)) rfl (Or.inr rfl)
  · unfold WF at a3 hs
    have key : ∀ t, fmt = .ext t → (∃ b v, Arg.own b v ∈ ps ∧ 0 < v.len) → format dbg s1 ⟨s.size, (argsText s.mem ps).length⟩ fmt args = .ub := by
      intro t e hv
      rw [e] at hp ⊢
      change Pieces t args ps at hp
      rw [format_ext dbg hp]
      refine cat_dangling dbg _ s1 s.mem _ _ rfl (by omega) (fun b v hm => ?_) hv
      obtain ⟨g1, g2⟩ := ho b v (List.mem_cons_of_mem _ (hp.own b v hm))
      exact ⟨by rw [g1]; exact fun h => a5 h.symm, by unfold In; omega⟩
    obtain ⟨b, v, hm, hpos⟩ := hv
    cases fmt with
    | ext t => exact key t rfl ⟨b, v, (List.mem_cons.1 hm).resolve_left (fun h => by cases h), hpos⟩
    | own b' v' =>
      obtain ⟨g1, g2⟩ := hof b' v' List.mem_cons_self
      have hl : (text s.mem v').length = v'.len := text_length (by unfold In; omega)
      by_cases h0 : v'.len = 0
      · -- an empty format text has no mark, hence no view
        have ht : text s.mem v' = [] := List.length_eq_zero_iff.1 (by omega)
        change Pieces (text s.mem v') args ps at hp
        rw [ht] at hp
        have : ps = [.ext []] := by
          generalize ht' : ([] : List Nat) = t at hp
          cases hp with
          | noargs => rfl
          | nomark => rfl
          | step => have := congrArg List.length ht'; rw [mark_len] at this; simp at this; omega
        rw [this] at hm
        simp at hm
        obtain ⟨_, rfl⟩ := hm
        omega
      · exact format_dangling dbg hp hl (by rw [g1]; exact fun h => a5 h.symm) (by omega)

example : WF ⟨true, 0, S "ab{}\x00________________", 4⟩ ∧
    catseprsAppend true (fun n => 2 * n) (.own 0 ⟨1, 1⟩) [.own 0 ⟨0, 2⟩, .ext (S "-"), .own 0 ⟨0, 1⟩] 2 ⟨true, 0, S "ab{}\x00______", 4⟩ = .ok (⟨4, 6⟩, ⟨true, 0, S "ab{}abb-ba\x00", 10⟩) ∧
    catseprsAppend true (fun n => 2 * n) (.own 0 ⟨1, 1⟩) [.ext (S "x"), .ext (S "y")] 2 ⟨true, 0, S "ab\x00", 2⟩ = .ub ∧
    formatrsAppend true (fun n => 2 * n) (.own 0 ⟨1, 3⟩) [.own 0 ⟨0, 4⟩, .own 0 ⟨0, 1⟩] 2 ⟨true, 0, S "ab{}\x00_____", 4⟩ = .ok (⟨4, 5⟩, ⟨true, 0, S "ab{}bab{}\x00", 9⟩) ∧
    formatrsAppend true (fun n => 2 * n) (.own 0 ⟨1, 3⟩) [.ext (S "x")] 2 ⟨true, 0, S "ab{}\x00", 4⟩ = .ub ∧
    formatrsAppend true (fun n => 2 * n) (.ext (S "<{}>")) [.ext (S "x"), .own 0 ⟨0, 2⟩] 2 ⟨true, 0, S "ab\x00", 2⟩ = .ok (⟨2, 3⟩, ⟨true, 1, S "ab<x>\x00\x00\x00\x00\x00\x00", 5⟩) :=
  ⟨by unfold WF; decide, by decide +kernel, by decide +kernel, by decide +kernel, by decide +kernel, by decide +kernel⟩

example : Pieces (S "b{}") [.own 0 ⟨0, 4⟩, .own 0 ⟨0, 1⟩] [.ext (S "b"), .own 0 ⟨0, 4⟩, .ext []] := by
  refine .step (pre := S "b") (post := []) (fun i hi => ?_) (.nomark fun i ⟨p, q, h, _⟩ => by simp [mark] at h)
  have : i = 0 := by
    have : (S "b").length = 1 := by decide
    omega
  subst this
  rintro ⟨p, q, h, hl⟩
  have : p = [] := List.length_eq_zero_iff.1 hl
  subst this
  have h2 := congrArg List.head? h
  exact absurd h2 (by simp [mark, S])

/-! ### C180: overwriting -/

theorem overwrite_catrs {dbg : Bool} {grow : Nat → Nat} {w : Cont → View → Res (Nat × Cont)} {ps : List Arg} (h : ∀ s buf, w s buf = cat dbg s buf ps) :
    ∀ (f : Nat) (s : Cont), overwriteWith grow w f s = catrs dbg grow ps f s := by
  intro f
  induction f with
  | zero => intro s; rfl
  | succ f ih =>
    intro s
    unfold overwriteWith catrs
    dsimp only
    rw [h]
    cases cat dbg s ⟨0, s.size⟩ ps with
    | ok x => rw [Res.ok_bind, Res.ok_bind, ih]
    | _ => rfl

/-- **C180** for catseprs: with no views among the texts the container gets the texts with the separator between them.  With views, if the result is not longer than the container: without assertions it gets the
texts as they were before the call if every view begins after what is written before it and its own length; with assertions, if no view is empty, it stops exactly if some view has characters after
what is written before it, and otherwise the views give what was written already (`outText`).  Missing: results longer than the container with views; the texts before the call in general (false, see below). -/
theorem C180_catsep_partial (grow : Nat → Nat) (s : Cont) (sep : Arg) (args : List Arg) (hs : WF s) (f : Nat) :
    ((∀ b v, Arg.own b v ∉ withSep sep args) → ∀ dbg, ∃ s', catseprs dbg grow sep args (f + 2) s = .ok s' ∧ content s' = separated (argText [] sep) (args.map (argText []))) ∧
    (Own s (withSep sep args) → (separated (argText s.mem sep) (args.map (argText s.mem))).length ≤ s.size →
      (Ahead 0 (withSep sep args) → ∃ s', catseprs false grow sep args (f + 1) s = .ok s' ∧ content s' = separated (argText s.mem sep) (args.map (argText s.mem))) ∧
      ((∀ b v, Arg.own b v ∈ withSep sep args → 0 < v.len) →
        (Behind 0 (withSep sep args) → ∀ dbg, ∃ s', catseprs dbg grow sep args (f + 1) s = .ok s' ∧ content s' = outText [] (withSep sep args)) ∧
        (¬ Behind 0 (withSep sep args) → catseprs true grow sep args (f + 1) s = .abort))) := by
  have key : ∀ dbg f s, catseprs dbg grow sep args f s = catrs dbg grow (withSep sep args) f s := fun dbg f s => overwrite_catrs (fun s buf => catsep_cat dbg sep args s buf) f s
  simp only [key, ← argsText_withSep]
  exact ⟨fun ho dbg => C174_texts_partial dbg grow s _ hs ho f, fun ho hl => ⟨fun ha => C174_ahead_partial grow s _ hs ho hl ha f, fun hne => C174_behind_partial grow s _ hs ho hl hne f⟩⟩

/-- **C180** for formatrs with a format text that is not a view of the container: as for catseprs, with the pieces of the result. -/
theorem C180_format_partial (grow : Nat → Nat) (s : Cont) (fmt : List Nat) (args ps : List Arg) (hs : WF s) (hp : Pieces fmt args ps) (f : Nat) :
    ((∀ b v, Arg.own b v ∉ ps) → ∀ dbg, ∃ s', formatrs dbg grow (.ext fmt) args (f + 2) s = .ok s' ∧ Subst fmt (args.map (argText [])) (content s')) ∧
    (Own s ps → (argsText s.mem ps).length ≤ s.size →
      (Ahead 0 ps → ∃ s', formatrs false grow (.ext fmt) args (f + 1) s = .ok s' ∧ Subst fmt (args.map (argText s.mem)) (content s')) ∧
      ((∀ b v, Arg.own b v ∈ ps → 0 < v.len) →
        (Behind 0 ps → ∀ dbg, ∃ s', formatrs dbg grow (.ext fmt) args (f + 1) s = .ok s' ∧ content s' = outText [] ps) ∧
        (¬ Behind 0 ps → formatrs true grow (.ext fmt) args (f + 1) s = .abort))) := by
  have key : ∀ dbg f s, formatrs dbg grow (.ext fmt) args f s = catrs dbg grow ps f s := fun dbg f s => overwrite_catrs (fun s buf => format_ext dbg hp s buf) f s
  simp only [key]
  refine ⟨fun ho dbg => ?_, fun ho hl => ⟨fun ha => ?_, fun hne => C174_behind_partial grow s _ hs ho hl hne f⟩⟩
  · obtain ⟨s', e, h⟩ := C174_texts_partial dbg grow s _ hs ho f
    exact ⟨s', e, by rw [h]; exact hp.subst⟩
  · obtain ⟨s', e, h⟩ := C174_ahead_partial grow s _ hs ho hl ha f
    exact ⟨s', e, by rw [h]; exact hp.subst⟩

/-- **C180** for formatrs with a view of the container as format text and no arguments: the same as writing the view (`C174_partial`). -/
theorem C180_noargs_partial (grow : Nat → Nat) (s : Cont) (v : View) (hs : WF s) (hv : v.str + v.len ≤ s.size) (f : Nat) :
    (0 < v.len ∨ Inside v ⟨0, s.size⟩ → formatrs true grow (.own s.blk v) [] (f + 1) s = .abort) ∧
    (v.str < v.len → formatrs false grow (.own s.blk v) [] (f + 1) s = .ub) ∧
    (v.len ≤ v.str → ∃ s', formatrs false grow (.own s.blk v) [] (f + 1) s = .ok s' ∧ content s' = text s.mem v) := by
  have key : ∀ dbg f s', formatrs dbg grow (.own s.blk v) [] f s' = catrs dbg grow [.own s.blk v] f s' := fun dbg f s' =>
    overwrite_catrs (fun s'' buf => (cat_single dbg s'' buf _).symm) f s'
  simp only [key]
  obtain ⟨h1, h2, h3, _⟩ := C174_partial grow s v hs hv f
  exact ⟨h1, h2, h3⟩

/-- **C180** fails: a separator that is a view of the container is overwritten by the first text, and the second mark of a format text that is a view of the container by the argument for the first mark; neither is
stopped by an assertion. -/
theorem C180_refuted (dbg : Bool) (grow : Nat → Nat) :
    (∃ s', catseprs dbg grow (.own 0 ⟨0, 1⟩) [.ext (S "x"), .ext (S "y")] 1 ⟨false, 0, S ",bcdef", 6⟩ = .ok s' ∧ content s' = S "xxy" ∧ separated (S ",") [S "x", S "y"] = S "x,y") ∧
    (∃ s', formatrs dbg grow (.own 0 ⟨0, 4⟩) [.ext (S "wxyz"), .ext (S "!")] 1 ⟨false, 0, S "{}{}____", 8⟩ = .ok s' ∧ content s' = S "wxyzyz" ∧ Subst (S "{}{}") [S "wxyz", S "!"] (S "wxyz!")) := by
  constructor
  · refine ⟨⟨false, 0, S "xxydef", 3⟩, ?_, by decide +kernel, by decide +kernel⟩
    cases dbg <;> rfl
  · refine ⟨⟨false, 0, S "wxyzyz__", 6⟩, ?_, by decide +kernel, ?_⟩
    · cases dbg <;> rfl
    · exact .step (pre := []) (post := [123, 125]) (fun i hi => absurd hi (by simp)) (.step (pre := []) (post := []) (fun i hi => absurd hi (by simp)) .noargs)

example : (∃ s', catseprs false (fun n => n) (.ext (S "-")) [.own 0 ⟨1, 1⟩, .own 0 ⟨3, 1⟩] 1 ⟨false, 0, S "abcdef", 6⟩ = .ok s' ∧ content s' = S "b-d") ∧
    Ahead 0 (withSep (.ext (S "-")) [.own 0 ⟨1, 1⟩, .own 0 ⟨3, 1⟩]) ∧
    catseprs true (fun n => n) (.ext (S "-")) [.own 0 ⟨1, 1⟩, .own 0 ⟨3, 1⟩] 1 ⟨false, 0, S "abcdef", 6⟩ = .abort :=
  ⟨⟨⟨false, 0, S "b-ddef", 3⟩, by decide +kernel, by decide +kernel⟩, by simp [Ahead, withSep, S], by decide +kernel⟩

end C4.Alias
