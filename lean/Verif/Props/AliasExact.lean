import Verif.Props.AliasFormat
/-
Properties C174 and C180 exactly, for results that are not longer than the container; and results that do not fit in its capacity.
-/
namespace C4.Alias
open C4.Spec
open Spec (Has Shares Inside In text place content WF argText argsText Own Ahead Behind outText withSep Pieces)

/-! ### Specification -/

/-- View `v` can be copied to where `n` characters have been written, `e` being the end of the container: without assertions it is empty, was written already, or is after the place its text gets; with assertions it was
written already, or is the empty view at the end. -/
def Spec.Fine (dbg : Bool) (e n : Nat) (v : View) : Prop :=
  if dbg then v.str + v.len ≤ n ∨ (v.len = 0 ∧ v.str = e) else v.len = 0 ∨ v.str + v.len ≤ n ∨ n + v.len ≤ v.str

/-- All views can be copied, after `n` characters. -/
def Spec.AllFine (dbg : Bool) (e : Nat) : Nat → List Arg → Prop
  | _, [] => True
  | n, .ext t :: as => AllFine dbg e (n + t.length) as
  | n, .own _ v :: as => Fine dbg e n v ∧ AllFine dbg e (n + v.len) as

/-- The texts one after the other, `m` being the characters before the call and `acc` those written so far: a view of what was written already has the new text, another one the old text. -/
def Spec.mixText (m acc : List Nat) : List Arg → List Nat
  | [] => acc
  | .ext t :: as => mixText m (acc ++ t) as
  | .own _ v :: as => mixText m (acc ++ if v.str + v.len ≤ acc.length then text acc v else text m v) as

open Spec (Fine AllFine mixText)

/-! ### Lemmas -/

theorem arg_ext (dbg : Bool) {s : Cont} {p L : Nat} {t : List Nat} (hL : t.length ≤ L) (hp : p + L ≤ s.mem.length) :
    argToChars dbg s ⟨p, L⟩ (.ext t) = .ok (t.length, { s with mem := place s.mem p t }) :=
  arg_fill dbg (a := .ext t) hL hp (fun b v hm => by cases List.mem_singleton.1 hm)

theorem arg_fine {dbg : Bool} {s : Cont} {n L : Nat} {v : View} (hL : v.len ≤ L) (hp : n + L ≤ s.mem.length) (hv : v.str + v.len ≤ n + L) :
    (Fine dbg (n + L) n v → argToChars dbg s ⟨n, L⟩ (.own s.blk v) = .ok (v.len, { s with mem := place s.mem n (text s.mem v) })) ∧
    (¬ Fine dbg (n + L) n v → argToChars dbg s ⟨n, L⟩ (.own s.blk v) = if dbg then .abort else .ub) := by
  have hin : In s.mem v := by unfold In; omega
  obtain ⟨t1, t2, t3, t4⟩ := C171_toChars s.mem ⟨n, L⟩ v hp hin
  have htk : (text s.mem v).take (View.mk n L).len = text s.mem v := List.take_of_length_le (by rw [text_length hin]; exact hL)
  have hmin : min (View.mk n L).len v.len = v.len := Nat.min_eq_right hL
  rw [htk] at t2 t4
  rw [hmin] at t1 t2
  unfold argToChars Fine
  dsimp only
  rw [if_pos rfl]
  cases dbg with
  | false =>
    constructor
    · intro h
      simp only [Bool.false_eq_true, if_false] at h
      rw [t2 (by rw [shares_iff]; dsimp only; omega)]; rfl
    · intro h
      simp only [Bool.false_eq_true, if_false] at h
      rw [t1 (by rw [shares_iff]; dsimp only; omega)]; rfl
  | true =>
    constructor
    · intro h
      simp only [if_true] at h
      rw [t4 (by rw [shares_iff]; dsimp only; omega) (by unfold Inside; dsimp only; omega) (by unfold Inside; dsimp only; omega)]; rfl
    · intro h
      simp only [if_true] at h
      have : Shares ⟨n, L⟩ v ∨ Inside v ⟨n, L⟩ ∨ Inside ⟨n, L⟩ v := by
        rw [shares_iff]; unfold Inside; dsimp only; omega
      rw [t3 this]; rfl

theorem mixText_length {m : List Nat} : ∀ (args : List Arg) (acc : List Nat), (∀ b v, Arg.own b v ∈ args → In m v) → (mixText m acc args).length = acc.length + (argsText m args).length := by
  intro args
  induction args with
  | nil => intro acc _; rfl
  | cons a as ih =>
    intro acc h
    have hrest : ∀ b v, Arg.own b v ∈ as → In m v := fun b v hm => h b v (List.mem_cons_of_mem _ hm)
    rw [argsText_cons, List.length_append]
    cases a with
    | ext t =>
      rw [mixText, ih _ hrest, List.length_append, Nat.add_assoc]; rfl
    | own b v =>
      have hv := h b v List.mem_cons_self
      rw [mixText, ih _ hrest, List.length_append, Nat.add_assoc]
      have : (argText m (.own b v)).length = v.len := text_length hv
      rw [this]
      congr 2
      split
      · exact text_length (by unfold In; omega)
      · exact text_length hv

theorem cat_mixed (dbg : Bool) : ∀ (args : List Arg) (s : Cont) (m acc : List Nat) (L : Nat), s.mem = place m 0 acc → (argsText m args).length ≤ L → acc.length + L ≤ m.length →
    (∀ b v, Arg.own b v ∈ args → b = s.blk ∧ v.str + v.len ≤ acc.length + L) →
    (AllFine dbg (acc.length + L) acc.length args → cat dbg s ⟨acc.length, L⟩ args = .ok ((argsText m args).length, { s with mem := place m 0 (mixText m acc args) })) ∧
    (¬ AllFine dbg (acc.length + L) acc.length args → cat dbg s ⟨acc.length, L⟩ args = if dbg then .abort else .ub) := by
  intro args
  induction args with
  | nil =>
    intro s m acc L h1 hL hp ho
    refine ⟨fun _ => ?_, fun h => absurd trivial h⟩
    rw [mixText, ← h1]; rfl
  | cons a as ih =>
    intro s m acc L h1 hL hp ho
    rw [argsText_cons, List.length_append] at hL
    have hml : s.mem.length = m.length := by rw [h1]; exact place_length (by omega)
    have hin : ∀ b v, Arg.own b v ∈ a :: as → In m v := fun b v hx => by have := (ho b v hx).2; unfold In; omega
    have step : ∀ t : List Nat, t.length = (argText m a).length →
        (AllFine dbg (acc.length + L) (acc.length + t.length) as → cat dbg { s with mem := place s.mem acc.length t } ⟨acc.length + t.length, L - t.length⟩ as =
          .ok ((argsText m as).length, { s with mem := place m 0 (mixText m (acc ++ t) as) })) ∧
        (¬ AllFine dbg (acc.length + L) (acc.length + t.length) as → cat dbg { s with mem := place s.mem acc.length t } ⟨acc.length + t.length, L - t.length⟩ as = if dbg then .abort else .ub) := by
      intro t ht
      have hpp : place s.mem acc.length t = place m 0 (acc ++ t) := by
        rw [h1]
        have := place_place (m := m) (p := 0) (t := acc) (u := t) (by omega)
        rw [Nat.zero_add] at this
        exact this
      have := ih { s with mem := place s.mem acc.length t } m (acc ++ t) (L - t.length) hpp (by omega) (by rw [List.length_append]; omega) (fun b v hx => by
        obtain ⟨g1, g2⟩ := ho b v (List.mem_cons_of_mem _ hx)
        exact ⟨g1, by rw [List.length_append]; omega⟩)
      dsimp only at this
      rw [List.length_append, show acc.length + t.length + (L - t.length) = acc.length + L from by omega] at this
      exact this
    have hrest : ∀ n, n ≤ L → restOf ⟨acc.length, L⟩ n = ⟨acc.length + n, L - n⟩ := by
      intro n hn
      unfold restOf
      rw [if_pos (by exact hn)]
    rw [cat_cons]
    cases a with
    | ext t =>
      obtain ⟨s1, s2⟩ := step t rfl
      change t.length + _ ≤ L at hL
      rw [arg_ext dbg (by omega) (by omega), Res.ok_bind]
      dsimp only
      rw [hrest _ (by omega)]
      refine ⟨fun hB => ?_, fun hB => ?_⟩
      · rw [s1 hB, Res.ok_bind, argsText_cons, List.length_append]; rfl
      · rw [s2 hB]; cases dbg <;> rfl
    | own b v =>
      obtain ⟨g1, g2⟩ := ho b v List.mem_cons_self
      subst g1
      have hvm := hin _ v List.mem_cons_self
      have hl : (argText m (.own s.blk v)).length = v.len := text_length hvm
      rw [hl] at hL
      obtain ⟨f1, f2⟩ := arg_fine (dbg := dbg) (s := s) (n := acc.length) (L := L) (v := v) (by omega) (by omega) g2
      by_cases hv : Fine dbg (acc.length + L) acc.length v
      · have htx : text s.mem v = if v.str + v.len ≤ acc.length then text acc v else text m v := by
          rw [h1, place_zero]
          split
          · rename_i h; exact text_prefix h
          · rename_i h
            have hcase : v.len = 0 ∨ acc.length + v.len ≤ v.str := by
              unfold Fine at hv
              cases dbg
              · simp only [Bool.false_eq_true, if_false] at hv; omega
              · simp only [if_true] at hv; omega
            rcases hcase with h0 | h0
            · unfold text; rw [h0]; rfl
            · have := text_place_after (m := m) (p := 0) (t := acc) (v := v) (by omega) (by omega)
              rw [place_zero] at this
              exact this
        have htl : (text s.mem v).length = v.len := text_length (by unfold In; omega)
        obtain ⟨s1, s2⟩ := step (text s.mem v) (by rw [hl]; exact htl)
        rw [htl] at s1 s2
        rw [f1 hv, Res.ok_bind]
        dsimp only
        rw [hrest _ (by omega)]
        refine ⟨fun hB => ?_, fun hB => ?_⟩
        · rw [s1 hB.2, Res.ok_bind, argsText_cons, List.length_append, hl, mixText, htx]
        · rw [s2 (fun h => hB ⟨hv, h⟩)]; cases dbg <;> rfl
      · refine ⟨fun hB => absurd hB.1 hv, fun _ => ?_⟩
        rw [f2 hv]; cases dbg <;> rfl

/-- **C174** exactly, if the result is not longer than the container: without assertions it is undefined if some view that is not empty is neither in what was written before it nor after the place its text gets, with assertions
it stops if some view is not in what was written before it (but for the empty view at the end).  Otherwise the container gets the texts, where views of what was written already have the new text.
Missing: results longer than the container, see `AliasLong`. -/
theorem C174_exact_partial (dbg : Bool) (grow : Nat → Nat) (s : Cont) (args : List Arg) (hs : WF s) (ho : Own s args) (hl : (argsText s.mem args).length ≤ s.size) (f : Nat) :
    (AllFine dbg s.size 0 args → ∃ s', catrs dbg grow args (f + 1) s = .ok s' ∧ content s' = mixText s.mem [] args) ∧
    (¬ AllFine dbg s.size 0 args → catrs dbg grow args (f + 1) s = if dbg then .abort else .ub) := by
  have hs' := hs
  unfold WF at hs'
  obtain ⟨c1, c2⟩ := cat_mixed dbg args s s.mem [] s.size (by rw [place_nil]) hl (by simp; omega) (fun b v hm => ⟨(ho b v hm).1, by have := (ho b v hm).2; simp; omega⟩)
  rw [List.length_nil, Nat.zero_add] at c1 c2
  have hol := mixText_length (m := s.mem) args [] (fun b v hm => by unfold In; have := (ho b v hm).2; omega)
  rw [List.length_nil, Nat.zero_add] at hol
  refine ⟨fun hB => ?_, fun hB => ?_⟩
  · have := c1 hB
    rw [← hol] at this
    exact catrs_fits hs (by omega) this f
  · unfold catrs
    dsimp only
    rw [c2 hB]; cases dbg <;> rfl

/-- What a call of cat may do: with views of the container, or of blocks released. -/
theorem cat_any (dbg : Bool) : ∀ (args : List Arg) (s : Cont) (buf : View) (N : Nat), buf.str + buf.len ≤ s.mem.length → s.mem.length = N → (∀ b v, Arg.own b v ∈ args → v.str + v.len ≤ N) →
    (∃ m', cat dbg s buf args = .ok ((argsText s.mem args).length, { s with mem := m' }) ∧ m'.length = N) ∨ cat dbg s buf args = .ub ∨ (dbg = true ∧ cat dbg s buf args = .abort) := by
  intro args
  induction args with
  | nil => intro s buf N hb hN _; exact Or.inl ⟨s.mem, rfl, hN⟩
  | cons a as ih =>
    intro s buf N hb hN ho
    have hone : (∃ m', argToChars dbg s buf a = .ok ((argText s.mem a).length, { s with mem := m' }) ∧ m'.length = N) ∨ argToChars dbg s buf a = .ub ∨ (dbg = true ∧ argToChars dbg s buf a = .abort) := by
      cases a with
      | ext t =>
        unfold argToChars
        dsimp only
        have h : buf.str + (t.take (if buf.len < t.length then buf.len else t.length)).length ≤ s.mem.length := by
          rw [List.length_take]; split <;> omega
        rw [memcpyTo_place h, Res.ok_bind]
        exact Or.inl ⟨_, rfl, by rw [place_length h]; exact hN⟩
      | own b v =>
        have hv := ho b v List.mem_cons_self
        have hin : In s.mem v := by unfold In; omega
        have hlen : (argText s.mem (.own b v)).length = v.len := text_length hin
        rw [hlen]
        unfold argToChars
        dsimp only
        by_cases g : b = s.blk
        · rw [if_pos g]
          obtain ⟨t1, t2, t3, t4⟩ := C171_toChars s.mem buf v hb hin
          have hpl : (place s.mem buf.str ((text s.mem v).take buf.len)).length = N := by
            rw [place_length (by rw [List.length_take]; omega)]; exact hN
          cases dbg with
          | false =>
            by_cases hsh : Shares ⟨buf.str, min buf.len v.len⟩ ⟨v.str, min buf.len v.len⟩
            · rw [t1 hsh]; exact Or.inr (Or.inl rfl)
            · rw [t2 hsh]; exact Or.inl ⟨_, rfl, hpl⟩
          | true =>
            by_cases hsh : Shares buf v ∨ Inside v buf ∨ Inside buf v
            · rw [t3 hsh]; exact Or.inr (Or.inr ⟨rfl, rfl⟩)
            · rw [t4 (fun h => hsh (Or.inl h)) (fun h => hsh (Or.inr (Or.inl h))) (fun h => hsh (Or.inr (Or.inr h)))]; exact Or.inl ⟨_, rfl, hpl⟩
        · rw [if_neg g]
          by_cases h0 : (if buf.len < v.len then buf.len else v.len) ≠ 0
          · rw [if_pos h0]; exact Or.inr (Or.inl rfl)
          · rw [if_neg h0]; exact Or.inl ⟨s.mem, rfl, hN⟩
    rw [cat_cons]
    rcases hone with ⟨m', e, hm'⟩ | e | ⟨hd, e⟩
    · rw [e, Res.ok_bind]
      dsimp only
      have hr : (restOf buf (argText s.mem a).length).str + (restOf buf (argText s.mem a).length).len ≤ N := by
        unfold restOf
        split <;> dsimp only <;> omega
      have hlen := argsText_len (m := s.mem) (m' := m') (by rw [hm', hN]) (args := as) (fun b v hx => by unfold In; have := ho b v (List.mem_cons_of_mem _ hx); omega)
      rcases ih { s with mem := m' } (restOf buf (argText s.mem a).length) N (by dsimp only; omega) hm' (fun b v hx => ho b v (List.mem_cons_of_mem _ hx)) with ⟨m2, e2, hm2⟩ | e2 | ⟨hd, e2⟩
      · rw [e2, Res.ok_bind]
        dsimp only
        rw [hlen, argsText_cons, List.length_append]
        exact Or.inl ⟨m2, rfl, hm2⟩
      · rw [e2]; exact Or.inr (Or.inl rfl)
      · rw [e2]; exact Or.inr (Or.inr ⟨hd, rfl⟩)
    · rw [e]; exact Or.inr (Or.inl rfl)
    · rw [e]; exact Or.inr (Or.inr ⟨hd, rfl⟩)

/-- **C174** if the result does not fit in the capacity and a view is not empty: without assertions it is undefined, at the latest when the view is read after its memory was released; with assertions it is undefined or
stops. -/
theorem C174_long (dbg : Bool) (grow : Nat → Nat) (s : Cont) (args : List Arg) (hs : WF s) (ho : Own s args) (hl : s.cap < (argsText s.mem args).length)
    (hv : ∃ b v, Arg.own b v ∈ args ∧ 0 < v.len) (f : Nat) : catrs dbg grow args (f + 2) s = .ub ∨ (dbg = true ∧ catrs dbg grow args (f + 2) s = .abort) := by
  have hs' := hs
  unfold WF at hs'
  unfold Cont.cap at hl
  unfold catrs
  dsimp only
  rcases cat_any dbg args s ⟨0, s.size⟩ s.mem.length (by dsimp only; omega) rfl (fun b v hm => by have := (ho b v hm).2; omega) with ⟨m', e, hm'⟩ | e | ⟨hd, e⟩
  · rw [e, Res.ok_bind]
    dsimp only
    rw [if_pos (by omega)]
    left
    have hw : WF { s with mem := m' } := by unfold WF; dsimp only; omega
    obtain ⟨s1, e1, a1, a2, a3, a4, a5⟩ := resize_grow (grow := grow) hw (n := (argsText s.mem args).length) (by dsimp only; omega)
    rw [if_neg (by unfold Cont.cap; dsimp only; omega)] at a5
    unfold WF at a3
    rw [e1]
    unfold catrs
    dsimp only
    rw [a1, cat_dangling dbg args s1 s.mem 0 _ rfl (by omega) (fun b v hm => ?_) hv]
    · rfl
    · obtain ⟨g1, g2⟩ := ho b v hm
      exact ⟨by rw [g1]; exact fun h => a5 h.symm, by unfold In; omega⟩
  · rw [e]; exact Or.inl rfl
  · rw [e]; exact Or.inr ⟨hd, rfl⟩

example : AllFine false 6 0 [.own 0 ⟨1, 1⟩, .ext (S "-"), .own 0 ⟨0, 2⟩] ∧ mixText (S "abcdef") [] [.own 0 ⟨1, 1⟩, .ext (S "-"), .own 0 ⟨0, 2⟩] = S "b-b-" ∧
    catrs false (fun n => n) [.own 0 ⟨1, 1⟩, .ext (S "-"), .own 0 ⟨0, 2⟩] 1 ⟨false, 0, S "abcdef", 6⟩ = .ok ⟨false, 0, S "b-b-ef", 4⟩ ∧
    catrs false (fun n => n) [.own 0 ⟨0, 4⟩, .own 0 ⟨1, 4⟩] 2 ⟨true, 0, S "abcdef\x00", 6⟩ = .ub :=
  ⟨by simp [AllFine, Fine, S], by decide +kernel, by decide +kernel, by decide +kernel⟩

/-- **C180** exactly for catseprs, if the result is not longer than the container, as `C174_exact_partial`; and if it does not fit in its capacity. -/
theorem C180_catsep_exact_partial (dbg : Bool) (grow : Nat → Nat) (s : Cont) (sep : Arg) (args : List Arg) (hs : WF s) (ho : Own s (withSep sep args)) (f : Nat) :
    ((separated (argText s.mem sep) (args.map (argText s.mem))).length ≤ s.size →
      (AllFine dbg s.size 0 (withSep sep args) → ∃ s', catseprs dbg grow sep args (f + 1) s = .ok s' ∧ content s' = mixText s.mem [] (withSep sep args)) ∧
      (¬ AllFine dbg s.size 0 (withSep sep args) → catseprs dbg grow sep args (f + 1) s = if dbg then .abort else .ub)) ∧
    (s.cap < (separated (argText s.mem sep) (args.map (argText s.mem))).length → (∃ b v, Arg.own b v ∈ withSep sep args ∧ 0 < v.len) →
      catseprs dbg grow sep args (f + 2) s = .ub ∨ (dbg = true ∧ catseprs dbg grow sep args (f + 2) s = .abort)) := by
  have key : ∀ f s, catseprs dbg grow sep args f s = catrs dbg grow (withSep sep args) f s := fun f s => overwrite_catrs (fun s buf => catsep_cat dbg sep args s buf) f s
  simp only [key, ← argsText_withSep]
  exact ⟨fun hl => C174_exact_partial dbg grow s _ hs ho hl f, fun hl hv => C174_long dbg grow s _ hs ho hl hv f⟩

/-- **C180** exactly for formatrs with a format text that is not a view of the container, if the result is not longer than the container, as `C174_exact_partial`; and if it does not fit in its capacity. -/
theorem C180_format_exact_partial (dbg : Bool) (grow : Nat → Nat) (s : Cont) (fmt : List Nat) (args ps : List Arg) (hs : WF s) (hp : Pieces fmt args ps) (ho : Own s ps) (f : Nat) :
    ((argsText s.mem ps).length ≤ s.size →
      (AllFine dbg s.size 0 ps → ∃ s', formatrs dbg grow (.ext fmt) args (f + 1) s = .ok s' ∧ content s' = mixText s.mem [] ps) ∧
      (¬ AllFine dbg s.size 0 ps → formatrs dbg grow (.ext fmt) args (f + 1) s = if dbg then .abort else .ub)) ∧
    (s.cap < (argsText s.mem ps).length → (∃ b v, Arg.own b v ∈ ps ∧ 0 < v.len) →
      formatrs dbg grow (.ext fmt) args (f + 2) s = .ub ∨ (dbg = true ∧ formatrs dbg grow (.ext fmt) args (f + 2) s = .abort)) := by
  have key : ∀ f s, formatrs dbg grow (.ext fmt) args f s = catrs dbg grow ps f s := fun f s => overwrite_catrs (fun s buf => format_ext dbg hp s buf) f s
  simp only [key]
  exact ⟨fun hl => C174_exact_partial dbg grow s _ hs ho hl f, fun hl hv => C174_long dbg grow s _ hs ho hl hv f⟩

end C4.Alias
