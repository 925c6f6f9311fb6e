import Verif.Props.AliasExact
/-
Properties C174 and C180 exactly, for results that are longer than the container but not than its capacity: the first pass overwrites the container with as much as there is
room for, the second reads the views in what the first left.
-/
namespace C4.Alias
open C4.Spec
open Spec (Has Shares Inside In text place content WF argText argsText Own outText withSep Pieces Fine AllFine mixText Ahead)

/-! ### Specification -/

/-- The views can be copied, after `n` characters, until there is no more room before `e`: as `AllFine`, and the view that does not fit is, as far as there is room for it (all of it, with assertions), in
what was written before. -/
def Spec.CutFine (dbg : Bool) (e : Nat) : Nat → List Arg → Prop
  | _, [] => True
  | n, .ext t :: as => n + t.length ≤ e → CutFine dbg e (n + t.length) as
  | n, .own _ v :: as => (n + v.len ≤ e → Fine dbg e n v ∧ CutFine dbg e (n + v.len) as) ∧ (e < n + v.len → n = e ∨ v.str + (if dbg then v.len else e - n) ≤ n)

/-- The texts one after the other as in `mixText`, cut at `e` characters. -/
def Spec.cutText (e : Nat) (m acc : List Nat) : List Arg → List Nat
  | [] => acc
  | .ext t :: as => if acc.length + t.length ≤ e then cutText e m (acc ++ t) as else acc ++ t.take (e - acc.length)
  | .own _ v :: as =>
    if acc.length + v.len ≤ e then cutText e m (acc ++ if v.str + v.len ≤ acc.length then text acc v else text m v) as
    else acc ++ (text acc v).take (e - acc.length)

open Spec (CutFine cutText)

/-! ### Lemmas -/

theorem text_take_prefix {acc r : List Nat} {v : View} {k : Nat} (hk : k ≤ v.len) (h : k = 0 ∨ v.str + k ≤ acc.length) : (text (acc ++ r) v).take k = (text acc v).take k := by
  rcases h with rfl | h
  · rfl
  · unfold text
    rw [List.take_take, List.take_take, Nat.min_eq_left hk, List.drop_append_of_le_length (by omega), List.take_append_of_le_length (by rw [List.length_drop]; omega)]

theorem arg_over_own {dbg : Bool} {s : Cont} {n L : Nat} {v : View} (hL : L < v.len) (hp : n + L ≤ s.mem.length) (hv : v.str + v.len ≤ n + L) :
    (L = 0 ∨ v.str + (if dbg then v.len else L) ≤ n → argToChars dbg s ⟨n, L⟩ (.own s.blk v) = .ok (v.len, { s with mem := place s.mem n ((text s.mem v).take L) })) ∧
    (¬ (L = 0 ∨ v.str + (if dbg then v.len else L) ≤ n) → argToChars dbg s ⟨n, L⟩ (.own s.blk v) = if dbg then .abort else .ub) := by
  have hin : In s.mem v := by unfold In; omega
  obtain ⟨t1, t2, t3, t4⟩ := C171_toChars s.mem ⟨n, L⟩ v hp hin
  have hmin : min (View.mk n L).len v.len = L := Nat.min_eq_left (by dsimp only; omega)
  rw [hmin] at t1 t2
  unfold argToChars
  dsimp only
  rw [if_pos rfl]
  cases dbg with
  | false =>
    simp only [Bool.false_eq_true, if_false]
    constructor
    · intro h
      rw [t2 (by rw [shares_iff]; dsimp only; omega)]; rfl
    · intro h
      rw [t1 (by rw [shares_iff]; dsimp only; omega)]; rfl
  | true =>
    simp only [if_true]
    constructor
    · intro h
      rw [t4 (by rw [shares_iff]; dsimp only; omega) (by unfold Inside; dsimp only; omega) (by unfold Inside; dsimp only; omega)]; rfl
    · intro h
      rw [t3 (.inl (by rw [shares_iff]; dsimp only; omega))]; rfl

theorem arg_over_ext (dbg : Bool) {s : Cont} {n L : Nat} {t : List Nat} (hL : L < t.length) (hp : n + L ≤ s.mem.length) :
    argToChars dbg s ⟨n, L⟩ (.ext t) = .ok (t.length, { s with mem := place s.mem n (t.take L) }) := by
  unfold argToChars
  dsimp only
  rw [if_pos hL, memcpyTo_place (by rw [List.length_take]; omega)]; rfl

theorem cutText_length {e : Nat} {m : List Nat} : ∀ (args : List Arg) (acc : List Nat), acc.length ≤ e → (∀ b v, Arg.own b v ∈ args → In m v ∧ v.str + v.len ≤ e) → ∀ dbg, CutFine dbg e acc.length args →
    e < acc.length + (argsText m args).length → (cutText e m acc args).length = e := by
  intro args
  induction args with
  | nil => intro acc _ _ _ _ h; simp [argsText] at h; omega
  | cons a as ih =>
    intro acc ha hin dbg hf h
    have hr : ∀ b v, Arg.own b v ∈ as → In m v ∧ v.str + v.len ≤ e := fun b v hx => hin b v (List.mem_cons_of_mem _ hx)
    rw [argsText_cons, List.length_append] at h
    cases a with
    | ext t =>
      change _ < _ + (t.length + _) at h
      unfold cutText
      by_cases hc : acc.length + t.length ≤ e
      · rw [if_pos hc]
        exact ih _ (by rw [List.length_append]; exact hc) hr dbg (by rw [List.length_append]; exact hf hc) (by rw [List.length_append]; omega)
      · rw [if_neg hc, List.length_append, List.length_take]; omega
    | own b v =>
      obtain ⟨hv, -⟩ := hin b v List.mem_cons_self
      have hl : (argText m (.own b v)).length = v.len := text_length hv
      rw [hl] at h
      unfold cutText
      by_cases hc : acc.length + v.len ≤ e
      · rw [if_pos hc]
        have htl : (if v.str + v.len ≤ acc.length then text acc v else text m v).length = v.len := by
          split
          · exact text_length (by unfold In; omega)
          · exact text_length hv
        exact ih _ (by rw [List.length_append, htl]; exact hc) hr dbg (by rw [List.length_append, htl]; exact (hf.1 hc).2) (by rw [List.length_append, htl]; omega)
      · rw [if_neg hc, List.length_append, List.length_take]
        have := hf.2 (by omega)
        unfold text
        rw [List.length_take, List.length_drop]
        cases dbg
        · simp only [Bool.false_eq_true, if_false] at this; omega
        · simp only [if_true] at this; omega

theorem argsText_length_eq {m m' : List Nat} {args : List Arg} (h : ∀ b v, Arg.own b v ∈ args → In m v ∧ In m' v) : (argsText m' args).length = (argsText m args).length := by
  induction args with
  | nil => rfl
  | cons a as ih =>
    rw [argsText_cons, argsText_cons, List.length_append, List.length_append, ih fun b v hx => h b v (List.mem_cons_of_mem _ hx)]
    cases a with
    | ext t => rfl
    | own b v =>
      obtain ⟨h1, h2⟩ := h b v List.mem_cons_self
      show (text m' v).length + _ = (text m v).length + _
      rw [text_length h1, text_length h2]

theorem cat_over (dbg : Bool) : ∀ (args : List Arg) (s : Cont) (m acc : List Nat) (L : Nat), s.mem = place m 0 acc → L < (argsText m args).length → acc.length + L = s.size →
    s.size + s.term.toNat ≤ m.length → Own s args →
    (CutFine dbg s.size acc.length args → cat dbg s ⟨acc.length, L⟩ args = .ok ((argsText m args).length, { s with mem := place m 0 (cutText s.size m acc args) })) ∧
    (¬ CutFine dbg s.size acc.length args → cat dbg s ⟨acc.length, L⟩ args = if dbg then .abort else .ub) := by
  intro args
  induction args with
  | nil => intro s m acc L h1 hL; simp [argsText] at hL
  | cons a as ih =>
    intro s m acc L h1 hL hsz hm ho
    rw [argsText_cons, List.length_append] at hL
    have hml : s.mem.length = m.length := by rw [h1]; exact place_length (by omega)
    have hin : ∀ b v, Arg.own b v ∈ a :: as → In m v := fun b v hx => by have := (ho b v hx).2; unfold In; omega
    have hpp : ∀ t : List Nat, place s.mem acc.length t = place m 0 (acc ++ t) := by
      intro t
      rw [h1]
      have := place_place (m := m) (p := 0) (t := acc) (u := t) (by omega)
      rw [Nat.zero_add] at this
      exact this
    -- the head fits
    have step : ∀ t : List Nat, t.length = (argText m a).length → t.length ≤ L →
        (CutFine dbg s.size (acc.length + t.length) as → cat dbg { s with mem := place s.mem acc.length t } ⟨acc.length + t.length, L - t.length⟩ as =
          .ok ((argsText m as).length, { s with mem := place m 0 (cutText s.size m (acc ++ t) as) })) ∧
        (¬ CutFine dbg s.size (acc.length + t.length) as → cat dbg { s with mem := place s.mem acc.length t } ⟨acc.length + t.length, L - t.length⟩ as = if dbg then .abort else .ub) := by
      intro t ht htL
      have := ih { s with mem := place s.mem acc.length t } m (acc ++ t) (L - t.length) (hpp t) (by omega) (by rw [List.length_append]; dsimp only; omega) hm
        (fun b v hx => ho b v (List.mem_cons_of_mem _ hx))
      dsimp only at this
      rw [List.length_append] at this
      exact this
    -- the head does not fit
    have over : ∀ t : List Nat, t.length ≤ L → cat dbg { s with mem := place s.mem acc.length t } ⟨0, 0⟩ as = .ok ((argsText m as).length, { s with mem := place m 0 (acc ++ t) }) := by
      intro t htL
      have hl : (place s.mem acc.length t).length = m.length := by rw [place_length (by omega)]; exact hml
      have := cat_none dbg (s := { s with mem := place s.mem acc.length t }) (by unfold WF; dsimp only; omega) (p := s.size) (Nat.le_refl _) as ⟨0, 0⟩ rfl (.inl rfl)
        (fun b v hx => ho b v (List.mem_cons_of_mem _ hx))
      rw [this, argsText_length_eq (m := m) (m' := place s.mem acc.length t) (fun b v hx => ⟨hin b v (List.mem_cons_of_mem _ hx), by
        have := hin b v (List.mem_cons_of_mem _ hx); unfold In at this ⊢; omega⟩), hpp]
    have hrest : ∀ n, n ≤ L → restOf ⟨acc.length, L⟩ n = ⟨acc.length + n, L - n⟩ := by
      intro n hn
      unfold restOf
      rw [if_pos (by exact hn)]
    have hrest0 : ∀ n, L < n → restOf ⟨acc.length, L⟩ n = ⟨0, 0⟩ := by
      intro n hn
      unfold restOf
      rw [if_neg (by dsimp only; omega)]
    rw [cat_cons]
    cases a with
    | ext t =>
      by_cases hc : t.length ≤ L
      · obtain ⟨s1, s2⟩ := step t rfl hc
        rw [arg_ext dbg hc (by omega), Res.ok_bind]
        dsimp only
        rw [hrest _ hc]
        refine ⟨fun hB => ?_, fun hB => ?_⟩
        · rw [s1 (hB (by omega)), Res.ok_bind, argsText_cons, List.length_append, cutText, if_pos (by omega)]; rfl
        · rw [s2 (fun h => hB fun _ => h)]; cases dbg <;> rfl
      · refine ⟨fun hB => ?_, fun hB => absurd (fun (h : acc.length + t.length ≤ s.size) => (by omega : CutFine dbg s.size (acc.length + t.length) as)) hB⟩
        rw [arg_over_ext dbg (by omega) (by omega), Res.ok_bind]
        dsimp only
        rw [hrest0 _ (by omega), over _ (by rw [List.length_take]; omega), Res.ok_bind, argsText_cons, List.length_append, cutText, if_neg (by omega), show s.size - acc.length = L by omega]
        rfl
    | own b v =>
      obtain ⟨g1, g2⟩ := ho b v List.mem_cons_self
      subst g1
      have hvm := hin _ v List.mem_cons_self
      have hl : (argText m (.own s.blk v)).length = v.len := text_length hvm
      rw [hl] at hL
      by_cases hc : v.len ≤ L
      · obtain ⟨f1, f2⟩ := arg_fine (dbg := dbg) (s := s) (n := acc.length) (L := L) (v := v) hc (by omega) (by omega)
        rw [hsz] at f1 f2
        by_cases hv : Fine dbg s.size acc.length v
        · have htx : text s.mem v = if v.str + v.len ≤ acc.length then text acc v else text m v := by
            rw [h1, place_zero]
            split
            · rename_i h; exact text_prefix h
            · rename_i h
              have hcase : v.len = 0 ∨ acc.length + v.len ≤ v.str := by
                unfold Fine at hv
                cases dbg
                · simp only [Bool.false_eq_true, if_false] at hv; omega
                · simp only [if_true] at hv; omega
              rcases hcase with h0 | h0
              · unfold text; rw [h0]; rfl
              · have := text_place_after (m := m) (p := 0) (t := acc) (v := v) (by omega) (by omega)
                rw [place_zero] at this
                exact this
          have htl : (text s.mem v).length = v.len := text_length (by unfold In; omega)
          obtain ⟨s1, s2⟩ := step (text s.mem v) (by rw [hl]; exact htl) (by omega)
          rw [htl] at s1 s2
          rw [f1 hv, Res.ok_bind]
          dsimp only
          rw [hrest _ hc]
          refine ⟨fun hB => ?_, fun hB => ?_⟩
          · rw [s1 (hB.1 (by omega)).2, Res.ok_bind, argsText_cons, List.length_append, hl, cutText, if_pos (by omega), htx]
          · rw [s2 (fun h => hB ⟨fun _ => ⟨hv, h⟩, fun h => by omega⟩)]; cases dbg <;> rfl
        · refine ⟨fun hB => absurd (hB.1 (by omega)).1 hv, fun _ => ?_⟩
          rw [f2 hv]; cases dbg <;> rfl
      · obtain ⟨f1, f2⟩ := arg_over_own (dbg := dbg) (s := s) (n := acc.length) (L := L) (v := v) (by omega) (by omega) (by omega)
        have hLe : s.size - acc.length = L := by omega
        by_cases hv : L = 0 ∨ v.str + (if dbg then v.len else L) ≤ acc.length
        · refine ⟨fun _ => ?_, fun hB => absurd ⟨fun h => (by omega), fun _ => ?_⟩ hB⟩
          · have htx : (text s.mem v).take L = (text acc v).take L := by
              rw [h1, place_zero]
              refine text_take_prefix (by omega) ?_
              rcases hv with h | h
              · exact .inl h
              · right
                cases dbg
                · simpa using h
                · simp only [if_true] at h; omega
            rw [f1 hv, Res.ok_bind]
            dsimp only
            rw [hrest0 _ (by omega), over _ (by rw [List.length_take]; omega), Res.ok_bind, argsText_cons, List.length_append, hl, cutText, if_neg (by omega), hLe, htx]
          · rw [hLe]
            rcases hv with h | h
            · left; omega
            · exact .inr h
        · refine ⟨fun hB => absurd ?_ hv, fun _ => ?_⟩
          · have := hB.2 (by omega)
            rw [hLe] at this
            rcases this with h | h
            · left; omega
            · exact .inr h
          · rw [f2 hv]; cases dbg <;> rfl

theorem mixText_congr {m m' : List Nat} {n : Nat} (h : m'.take n = m.take n) : ∀ (args : List Arg) (acc : List Nat), (∀ b v, Arg.own b v ∈ args → v.str + v.len ≤ n) → mixText m' acc args = mixText m acc args := by
  intro args
  induction args with
  | nil => intro acc _; rfl
  | cons a as ih =>
    intro acc ha
    have hr : ∀ b v, Arg.own b v ∈ as → v.str + v.len ≤ n := fun b v hx => ha b v (List.mem_cons_of_mem _ hx)
    cases a with
    | ext t => rw [mixText, mixText, ih _ hr]
    | own b v =>
      have := ha b v List.mem_cons_self
      have key : ∀ l : List Nat, text l v = text (l.take n) v := by
        intro l
        unfold text
        rw [List.drop_take, List.take_take, Nat.min_eq_left (by omega)]
      rw [mixText, mixText, ih _ hr, key m', key m, h]

/-- **C174** exactly, if the result is longer than the container but not than its capacity.  The first pass leaves `cutText` in the container, the second reads the views in that (`mixText` of it); if a view
cannot be copied in one of the passes, the call is undefined, or stopped with assertions. -/
theorem C174_within_exact (dbg : Bool) (grow : Nat → Nat) (s : Cont) (args : List Arg) (hs : WF s) (ho : Own s args) (hl : s.size < (argsText s.mem args).length)
    (hc : (argsText s.mem args).length ≤ s.cap) (f : Nat) :
    (CutFine dbg s.size 0 args ∧ AllFine dbg (argsText s.mem args).length 0 args →
      ∃ s', catrs dbg grow args (f + 2) s = .ok s' ∧ content s' = mixText (cutText s.size s.mem [] args) [] args) ∧
    (¬ (CutFine dbg s.size 0 args ∧ AllFine dbg (argsText s.mem args).length 0 args) → catrs dbg grow args (f + 2) s = if dbg then .abort else .ub) := by
  have hs' := hs
  unfold WF at hs'
  obtain ⟨c1, c2⟩ := cat_over dbg args s s.mem [] s.size (by rw [place_nil]) hl (by simp) hs' ho
  rw [List.length_nil] at c1 c2
  have hin : ∀ b v, Arg.own b v ∈ args → In s.mem v ∧ v.str + v.len ≤ s.size := fun b v hx => by
    have := (ho b v hx).2
    exact ⟨by unfold In; omega, this⟩
  by_cases hB : CutFine dbg s.size 0 args
  · have hcl := cutText_length (m := s.mem) args [] (Nat.zero_le _) hin dbg hB (by simpa using hl)
    generalize hC : cutText s.size s.mem [] args = C at hcl c1 ⊢
    have hplace : (place s.mem 0 C).length = s.mem.length := place_length (by omega)
    obtain ⟨s1, e1, a1, a2, a3, a4, a5⟩ := resize_grow (grow := grow) (s := { s with mem := place s.mem 0 C }) (n := (argsText s.mem args).length) (by unfold WF; dsimp only; omega) (by dsimp only; omega)
    rw [if_pos (by unfold Cont.cap at hc ⊢; dsimp only; rw [hplace]; exact hc)] at a5
    dsimp only at a4 a5
    have a3' := a3
    unfold WF at a3'
    have htk : s1.mem.take s.size = C.take s.size := by
      rw [a4, place_zero, List.take_left' hcl, List.take_of_length_le (by omega)]
    have ho1 : Own s1 args := fun b v hx => by
      obtain ⟨g1, g2⟩ := ho b v hx
      exact ⟨g1.trans a5.1.symm, by omega⟩
    have hlen : (argsText s1.mem args).length = (argsText s.mem args).length := argsText_length_eq fun b v hx => ⟨(hin b v hx).1, by
      have := (hin b v hx).2; unfold In; omega⟩
    obtain ⟨x1, x2⟩ := C174_exact_partial dbg grow s1 args a3 ho1 (by omega) f
    have hrun : catrs dbg grow args (f + 2) s = catrs dbg grow args (f + 1) s1 := by
      conv => lhs; unfold catrs
      dsimp only
      rw [c1 hB, Res.ok_bind]
      dsimp only
      rw [e1, if_pos (by omega)]
    rw [hrun]
    rw [a1] at x1 x2
    refine ⟨fun h => ?_, fun h => x2 fun g => h ⟨hB, g⟩⟩
    obtain ⟨s2, y1, y2⟩ := x1 h.2
    exact ⟨s2, y1, by rw [y2, mixText_congr htk args [] fun b v hx => (hin b v hx).2]⟩
  · refine ⟨fun h => absurd h.1 hB, fun _ => ?_⟩
    unfold catrs
    dsimp only
    rw [c2 hB]; cases dbg <;> rfl

/-- **C174** exactly, if the result is longer than the capacity and all views of the container are empty (see `C174_long` for others): the container gets the texts, unless an assertion stops the first pass. -/
theorem C174_empty_exact (dbg : Bool) (grow : Nat → Nat) (s : Cont) (args : List Arg) (hs : WF s) (ho : Own s args) (hl : s.cap < (argsText s.mem args).length)
    (hv : ∀ b v, Arg.own b v ∈ args → v.len = 0) (f : Nat) :
    (CutFine dbg s.size 0 args → ∃ s', catrs dbg grow args (f + 2) s = .ok s' ∧ content s' = argsText s.mem args) ∧
    (¬ CutFine dbg s.size 0 args → catrs dbg grow args (f + 2) s = if dbg then .abort else .ub) := by
  have hs' := hs
  unfold WF at hs'
  have hl' := hl
  unfold Cont.cap at hl'
  obtain ⟨c1, c2⟩ := cat_over dbg args s s.mem [] s.size (by rw [place_nil]) (by omega) (by simp) hs' ho
  rw [List.length_nil] at c1 c2
  have hin : ∀ b v, Arg.own b v ∈ args → In s.mem v ∧ v.str + v.len ≤ s.size := fun b v hx => by
    have := (ho b v hx).2
    exact ⟨by unfold In; omega, this⟩
  refine ⟨fun hB => ?_, fun hB => ?_⟩
  · have hcl := cutText_length (m := s.mem) args [] (Nat.zero_le _) hin dbg hB (by rw [List.length_nil]; omega)
    have c1 := c1 hB
    generalize cutText s.size s.mem [] args = C at hcl c1
    have hplace : (place s.mem 0 C).length = s.mem.length := place_length (by omega)
    obtain ⟨s1, e1, a1, a2, a3, a4, a5⟩ := resize_grow (grow := grow) (s := { s with mem := place s.mem 0 C }) (n := (argsText s.mem args).length) (by unfold WF; dsimp only; omega) (by dsimp only; omega)
    rw [if_neg (by unfold Cont.cap; dsimp only; rw [hplace]; omega)] at a5
    dsimp only at a5
    have a3' := a3
    unfold WF at a3'
    have htx : argsText s1.mem args = argsText s.mem args := by
      unfold argsText
      rw [List.flatMap_def, List.flatMap_def, List.map_congr_left]
      intro x hx
      cases x with
      | ext t => rfl
      | own b v =>
        show text _ v = text _ v
        unfold text
        rw [hv b v hx]; rfl
    have hfill := cat_fill dbg args s1 0 s1.size (by rw [htx]; omega) (by omega) (fun b v hx => .inr ⟨by rw [(ho b v hx).1]; exact Ne.symm a5, hv b v hx⟩)
    rw [htx] at hfill
    obtain ⟨s2, y1, y2⟩ := catrs_fits (grow := grow) a3 (by omega) hfill f
    refine ⟨s2, ?_, y2⟩
    unfold catrs
    dsimp only
    rw [c1, Res.ok_bind]
    dsimp only
    rw [e1, if_pos (by omega), y1]
  · unfold catrs
    dsimp only
    rw [c2 hB]; cases dbg <;> rfl

/-- **C174** exactly, if the result is longer than the capacity and some view of the container is not empty: undefined, unless an assertion stops the first pass. -/
theorem C174_long_exact (dbg : Bool) (grow : Nat → Nat) (s : Cont) (args : List Arg) (hs : WF s) (ho : Own s args) (hl : s.cap < (argsText s.mem args).length)
    (hv : ∃ b v, Arg.own b v ∈ args ∧ 0 < v.len) (f : Nat) :
    (CutFine dbg s.size 0 args → catrs dbg grow args (f + 2) s = .ub) ∧ (¬ CutFine dbg s.size 0 args → catrs dbg grow args (f + 2) s = if dbg then .abort else .ub) := by
  have hs' := hs
  unfold WF at hs'
  unfold Cont.cap at hl
  obtain ⟨c1, c2⟩ := cat_over dbg args s s.mem [] s.size (by rw [place_nil]) (by omega) (by simp) hs' ho
  rw [List.length_nil] at c1 c2
  have hin : ∀ b v, Arg.own b v ∈ args → In s.mem v ∧ v.str + v.len ≤ s.size := fun b v hx => by
    have := (ho b v hx).2
    exact ⟨by unfold In; omega, this⟩
  refine ⟨fun hB => ?_, fun hB => ?_⟩
  · have hcl := cutText_length (m := s.mem) args [] (Nat.zero_le _) hin dbg hB (by rw [List.length_nil]; omega)
    have c1 := c1 hB
    generalize cutText s.size s.mem [] args = C at hcl c1
    have hplace : (place s.mem 0 C).length = s.mem.length := place_length (by omega)
    obtain ⟨s1, e1, a1, a2, a3, a4, a5⟩ := resize_grow (grow := grow) (s := { s with mem := place s.mem 0 C }) (n := (argsText s.mem args).length) (by unfold WF; dsimp only; omega) (by dsimp only; omega)
    rw [if_neg (by unfold Cont.cap; dsimp only; rw [hplace]; omega)] at a5
    dsimp only at a5
    unfold WF at a3
    unfold catrs
    dsimp only
    rw [c1, Res.ok_bind]
    dsimp only
    rw [e1, if_pos (by omega)]
    unfold catrs
    dsimp only
    rw [a1, cat_dangling dbg args s1 s.mem 0 _ rfl (by omega) (fun b v hm => ?_) hv]
    · rfl
    · exact ⟨by rw [(ho b v hm).1]; exact fun h => a5 h.symm, (hin b v hm).1⟩
  · unfold catrs
    dsimp only
    rw [c2 hB]; cases dbg <;> rfl

/-- **C180** for catseprs and for formatrs with a format text elsewhere, exactly, if the result is longer than the container but not than its capacity. -/
theorem C180_within_exact (dbg : Bool) (grow : Nat → Nat) (s : Cont) (hs : WF s) (f : Nat) :
    (∀ sep args, Own s (withSep sep args) → s.size < (separated (argText s.mem sep) (args.map (argText s.mem))).length →
      (separated (argText s.mem sep) (args.map (argText s.mem))).length ≤ s.cap →
      (CutFine dbg s.size 0 (withSep sep args) ∧ AllFine dbg (separated (argText s.mem sep) (args.map (argText s.mem))).length 0 (withSep sep args) →
        ∃ s', catseprs dbg grow sep args (f + 2) s = .ok s' ∧ content s' = mixText (cutText s.size s.mem [] (withSep sep args)) [] (withSep sep args)) ∧
      (¬ (CutFine dbg s.size 0 (withSep sep args) ∧ AllFine dbg (separated (argText s.mem sep) (args.map (argText s.mem))).length 0 (withSep sep args)) →
        catseprs dbg grow sep args (f + 2) s = if dbg then .abort else .ub)) ∧
    (∀ fmt args ps, Pieces fmt args ps → Own s ps → s.size < (argsText s.mem ps).length → (argsText s.mem ps).length ≤ s.cap →
      (CutFine dbg s.size 0 ps ∧ AllFine dbg (argsText s.mem ps).length 0 ps →
        ∃ s', formatrs dbg grow (.ext fmt) args (f + 2) s = .ok s' ∧ content s' = mixText (cutText s.size s.mem [] ps) [] ps) ∧
      (¬ (CutFine dbg s.size 0 ps ∧ AllFine dbg (argsText s.mem ps).length 0 ps) → formatrs dbg grow (.ext fmt) args (f + 2) s = if dbg then .abort else .ub)) := by
  refine ⟨fun sep args ho h1 h2 => ?_, fun fmt args ps hp ho h1 h2 => ?_⟩
  · have key : ∀ f s, catseprs dbg grow sep args f s = catrs dbg grow (withSep sep args) f s := fun f s => overwrite_catrs (fun s buf => catsep_cat dbg sep args s buf) f s
    rw [← argsText_withSep] at h1 h2 ⊢
    rw [key]
    exact C174_within_exact dbg grow s _ hs ho h1 h2 f
  · have key : ∀ f s, formatrs dbg grow (.ext fmt) args f s = catrs dbg grow ps f s := fun f s => overwrite_catrs (fun s buf => format_ext dbg hp s buf) f s
    rw [key]
    exact C174_within_exact dbg grow s _ hs ho h1 h2 f

/-! ### Format texts in the container -/

theorem arg_ahead {s : Cont} {p L : Nat} {a : Arg} (hL : (argText s.mem a).length ≤ L) (hp : p + L ≤ s.mem.length) (ha : Ahead p [a]) (ho : ∀ b v, a = .own b v → b = s.blk ∧ In s.mem v) :
    argToChars false s ⟨p, L⟩ a = .ok ((argText s.mem a).length, { s with mem := place s.mem p (argText s.mem a) }) := by
  have e : argsText s.mem [a] = argText s.mem a := by rw [argsText_cons]; exact List.append_nil _
  have := cat_ahead [a] s p L (by rw [e]; exact hL) hp ha (fun b v hm => ho b v (List.mem_singleton.1 hm).symm)
  rw [cat_single, e] at this
  exact this

/-- What formatrs writes never gets beyond what it has read of a format text at `off`, from which are the first, third, ... of the texts; and these texts are written before the place
where they are. -/
def Spec.FormatAhead (m : List Nat) : Nat → Nat → List Arg → Prop
  | off, p, .ext pre :: a :: ps => (pre = [] ∨ p + pre.length ≤ off) ∧ p + (argText m a).length ≤ off + 2 ∧ FormatAhead m (off + (pre.length + 2)) (p + pre.length + (argText m a).length) ps
  | off, p, [.ext t] => t = [] ∨ p + t.length ≤ off
  | _, _, _ => True

open Spec (FormatAhead)

theorem FormatAhead.mem {m m' : List Nat} : ∀ {ps : List Arg} {off p : Nat}, (∀ b v, Arg.own b v ∈ ps → (text m v).length = (text m' v).length) → FormatAhead m off p ps →
    FormatAhead m' off p ps
  | [], _, _, _, _ => trivial
  | [.ext _], _, _, _, h => h
  | [.own _ _], _, _, _, _ => trivial
  | .own _ _ :: _ :: _, _, _, _, _ => trivial
  | .ext pre :: b :: ps, off, p, ho, h => by
    have hb : (argText m b).length = (argText m' b).length := by
      cases b with
      | ext t => rfl
      | own c w => exact ho c w (by simp)
    unfold FormatAhead at h ⊢
    rw [← hb]
    exact ⟨h.1, h.2.1, FormatAhead.mem (fun c w g => ho c w (by simp [g])) h.2.2⟩

/-- If the whole result ends before the format text begins. -/
theorem FormatAhead.of_before {m t : List Nat} {args ps : List Arg} (h : Pieces t args ps) : ∀ {off p : Nat}, p + (argsText m ps).length ≤ off → FormatAhead m off p ps := by
  have e : ∀ t, argsText m [Arg.ext t] = t := fun t => by rw [argsText_cons]; exact List.append_nil _
  induction h with
  | noargs => intro off p hl; rw [e] at hl; exact .inr hl
  | nomark _ => intro off p hl; rw [e] at hl; exact .inr hl
  | @step pre post a args ps _ _ ih =>
    intro off p hl
    rw [argsText_cons, argsText_cons, List.length_append, List.length_append] at hl
    change p + (pre.length + _) ≤ off at hl
    exact ⟨.inr (by omega), by omega, ih (by omega)⟩

theorem format_ahead {t : List Nat} {args ps : List Arg} (h : Pieces t args ps) : ∀ (s : Cont) (p L : Nat) (v : View), text s.mem v = t → In s.mem v → (argsText s.mem ps).length ≤ L →
    p + L ≤ s.mem.length → Ahead p ps → (∀ b v, Arg.own b v ∈ ps → b = s.blk ∧ In s.mem v) → FormatAhead s.mem v.str p ps →
    format false s ⟨p, L⟩ (.own s.blk v) args = .ok ((argsText s.mem ps).length, { s with mem := place s.mem p (argsText s.mem ps) }) := by
  have whole : ∀ (t : List Nat) (s : Cont) (p L : Nat) (v : View), text s.mem v = t → In s.mem v → (argsText s.mem [Arg.ext t]).length ≤ L → p + L ≤ s.mem.length →
      FormatAhead s.mem v.str p [Arg.ext t] → argToChars false s ⟨p, L⟩ (.own s.blk v) = .ok ((argsText s.mem [Arg.ext t]).length, { s with mem := place s.mem p (argsText s.mem [Arg.ext t]) }) := by
    intro t s p L v ht hv hL hp hvp
    have e : argsText s.mem [Arg.ext t] = t := by rw [argsText_cons]; exact List.append_nil _
    have hl : t.length = v.len := by rw [← ht]; exact text_length hv
    rw [e] at hL ⊢
    unfold FormatAhead at hvp
    have hw : v.len = 0 ∨ p + v.len ≤ v.str := by
      rcases hvp with rfl | hvp
      · left; exact hl.symm
      · right; omega
    have := arg_ahead (s := s) (p := p) (L := L) (a := .own s.blk v) (by show (text s.mem v).length ≤ L; rw [ht]; exact hL) hp ⟨hw, trivial⟩ (fun b w g => by cases g; exact ⟨rfl, hv⟩)
    rw [show argText s.mem (.own s.blk v) = t from ht] at this
    exact this
  induction h with
  | noargs => intro s p L v ht hv hL hp _ _ hvp; exact whole _ s p L v ht hv hL hp hvp
  | @nomark fmt args h =>
    intro s p L v ht hv hL hp _ _ hvp
    have hr : Readable s (.own s.blk v) := fun b w g => by cases g; exact .inl ⟨rfl, hv⟩
    rw [format_none' false (findMark_none hr (by rw [show argText s.mem (.own s.blk v) = fmt from ht]; exact h))]
    exact whole _ s p L v ht hv hL hp hvp
  | @step pre post a args ps h _ ih =>
    intro s p L v ht hv hL hp ha ho hvp
    have hr : Readable s (.own s.blk v) := fun b w g => by cases g; exact .inl ⟨rfl, hv⟩
    have ht' : argText s.mem (.own s.blk v) = pre ++ mark ++ post := ht
    have hlen : v.len = pre.length + 2 + post.length := by rw [← text_length hv, ht, mark_len]
    have hv' := hv
    unfold In at hv'
    rw [argsText_cons, argsText_cons, List.length_append, List.length_append] at hL
    change pre.length + _ ≤ L at hL
    unfold FormatAhead at hvp
    obtain ⟨hv1, hv2, hv3⟩ := hvp
    have hpre : argText s.mem ((Arg.own s.blk v).sub 0 pre.length) = pre := sub_pre ht'
    have hpost : argText s.mem ((Arg.own s.blk v).sub (pre.length + 2) ((Arg.own s.blk v).len - (pre.length + 2))) = post := sub_post hr ht'
    rw [format_some false (findMark_some hr ht' h)]
    rw [arg_ahead (a := (Arg.own s.blk v).sub 0 pre.length) (by rw [hpre]; omega) hp ⟨by dsimp only; rcases hv1 with rfl | hv1 <;> [left; right] <;> first | rfl | omega, trivial⟩ (fun b w g => by cases g; exact ⟨rfl, by unfold In; dsimp only; omega⟩), Res.ok_bind, hpre]
    dsimp only
    have hrest : ∀ p L n, n ≤ L → restOf ⟨p, L⟩ n = ⟨p + n, L - n⟩ := by
      intro p L n hn
      unfold restOf
      rw [if_pos (by exact hn)]
    have hpl : (place s.mem p pre).length = s.mem.length := place_length (by omega)
    -- the argument, after the text before the mark was written
    have hsame := argsText_ahead (m := s.mem) (p := p) (t := pre) (by omega) (args := a :: ps) ha
    rw [argsText_cons, argsText_cons] at hsame
    have hoa : ∀ b v, a = .own b v → b = s.blk ∧ In (place s.mem p pre) v := fun b w g => by
      obtain ⟨g1, g2⟩ := ho b w (by rw [g]; simp)
      exact ⟨g1, by unfold In at g2 ⊢; omega⟩
    have hla : (argText (place s.mem p pre) a).length = (argText s.mem a).length := by
      cases a with
      | ext t => rfl
      | own b w =>
        show (text _ w).length = (text _ w).length
        rw [text_length (hoa b w rfl).2, text_length (ho b w (by simp)).2]
    obtain ⟨hsa, hsp⟩ := List.append_inj hsame hla
    have ha1 : Ahead (p + pre.length) [a] := by
      cases a with
      | ext t => trivial
      | own b w => exact ⟨ha.1, trivial⟩
    rw [hrest _ _ _ (by omega), arg_ahead (s := { s with mem := place s.mem p pre }) (by dsimp only; rw [hsa]; omega) (by dsimp only; omega) ha1 hoa, Res.ok_bind]
    dsimp only
    rw [hsa, hrest _ _ _ (by omega), place_place (by omega)]
    have ha2 : Ahead (p + (pre ++ argText s.mem a).length) ps := by
      rw [List.length_append, ← Nat.add_assoc]
      cases a with
      | ext t => exact ha
      | own b w =>
        have := ha.2
        rw [show (argText s.mem (.own b w)).length = w.len from text_length (ho b w (by simp)).2]
        exact this
    have hsame2 := argsText_ahead (m := s.mem) (p := p) (t := pre ++ argText s.mem a) (by omega) (args := ps) ha2
    have hpl2 : (place s.mem p (pre ++ argText s.mem a)).length = s.mem.length := place_length (by rw [List.length_append]; omega)
    have hvt : text (place s.mem p (pre ++ argText s.mem a)) ⟨v.str + (pre.length + 2), v.len - (pre.length + 2)⟩ = post := by
      rw [text_place_after (by rw [List.length_append]; dsimp only; omega) (by omega)]
      exact hpost
    have := ih { s with mem := place s.mem p (pre ++ argText s.mem a) } (p + (pre ++ argText s.mem a).length) (L - (pre ++ argText s.mem a).length) ⟨v.str + (pre.length + 2), v.len - (pre.length + 2)⟩
      hvt (by unfold In; dsimp only; omega) (by dsimp only; rw [hsame2, List.length_append]; omega) (by dsimp only; rw [hpl2, List.length_append]; omega) ha2
      (fun b w g => by
        obtain ⟨g1, g2⟩ := ho b w (by simp [g])
        exact ⟨g1, by unfold In at g2 ⊢; dsimp only; omega⟩)
      (by
        have hm : FormatAhead (place s.mem p (pre ++ argText s.mem a)) (v.str + (pre.length + 2)) (p + (pre ++ argText s.mem a).length) ps :=
          FormatAhead.mem (fun b w g => by
            have := (ho b w (by simp [g])).2
            rw [text_length this, text_length (by unfold In at this ⊢; omega)]) (by
              have e : p + (pre ++ argText s.mem a).length = p + pre.length + (argText s.mem a).length := by rw [List.length_append]; omega
              rw [e]; exact hv3)
        exact hm)
    dsimp only at this
    rw [hsame2, place_place (by rw [List.length_append]; omega)] at this
    rw [show p + pre.length + (argText s.mem a).length = p + (pre ++ argText s.mem a).length by rw [List.length_append]; omega,
      show L - pre.length - (argText s.mem a).length = L - (pre ++ argText s.mem a).length by rw [List.length_append]; omega]
    show (format false _ _ (.own s.blk ⟨v.str + (pre.length + 2), v.len - (pre.length + 2)⟩) args >>= _) = _
    rw [this, Res.ok_bind]
    dsimp only
    rw [argsText_cons, argsText_cons, List.length_append, List.length_append, ← List.append_assoc, ← Nat.add_assoc]
    rfl

/-- **C180** for formatrs with a view of the container as format text.  With assertions it stops at once, unless the view is empty or is at the beginning of the container and has a mark there.  Without assertions, if the result
fits, what is written never gets beyond what was read of the format text (in particular if the format text begins after the end of the result), and every view among the arguments begins after the place its
text gets, then the container gets the text that the format text and the arguments had before the call. -/
theorem C180_own_format_partial (grow : Nat → Nat) (s : Cont) (v : View) (args : List Arg) (hs : WF s) (hv : v.str + v.len ≤ s.size) (f : Nat) :
    (0 < v.len → (0 < v.str ∨ args = [] ∨ ¬ mark <+: text s.mem v) → formatrs true grow (.own s.blk v) args (f + 1) s = .abort) ∧
    (∀ ps, Pieces (text s.mem v) args ps → Own s ps → Ahead 0 ps → (argsText s.mem ps).length ≤ s.size → FormatAhead s.mem v.str 0 ps →
      ∃ s', formatrs false grow (.own s.blk v) args (f + 1) s = .ok s' ∧ Subst (text s.mem v) (args.map (argText s.mem)) (content s')) := by
  have hs' := hs
  unfold WF at hs'
  have hin : In s.mem v := by unfold In; omega
  constructor
  · intro h0 hc
    have hab : ∀ w : View, w.str + w.len ≤ s.size → 0 < w.len ∨ (0 < w.str ∧ w.str < s.size) → argToChars true s ⟨0, s.size⟩ (.own s.blk w) = .abort := by
      intro w h1 h2
      obtain ⟨-, -, t3, -⟩ := C171_toChars s.mem ⟨0, s.size⟩ w (by unfold In; dsimp only; omega) (by unfold In; omega)
      unfold argToChars
      dsimp only
      rw [if_pos rfl, t3 (by
        by_cases hw : 0 < w.len
        · left; rw [shares_iff]; dsimp only; omega
        · right; left; unfold Inside; dsimp only; omega)]
      rfl
    have hw : format true s ⟨0, s.size⟩ (.own s.blk v) args = .abort := by
      cases args with
      | nil => exact hab v hv (.inl h0)
      | cons a as =>
        have hr : Readable s (.own s.blk v) := fun b w g => by cases g; exact .inl ⟨rfl, hin⟩
        obtain ⟨ps, hp⟩ := Pieces.exist (a :: as) (text s.mem v)
        generalize ht : text s.mem v = t at hp
        cases hp with
        | nomark h =>
          rw [format_none' true (findMark_none hr (by rw [show argText s.mem (.own s.blk v) = t from ht]; exact h))]
          exact hab v hv (.inl h0)
        | @step pre post a args ps h _ =>
          have hlen : v.len = pre.length + 2 + post.length := by rw [← text_length hin, ht, mark_len]
          rw [format_some true (findMark_some hr ht h)]
          have : argToChars true s ⟨0, s.size⟩ ((Arg.own s.blk v).sub 0 pre.length) = .abort := by
            refine hab ⟨v.str + 0, pre.length⟩ (by dsimp only; omega) ?_
            dsimp only
            by_cases hp0 : pre = []
            · subst hp0
              rcases hc with hc | hc | hc
              · right; omega
              · cases hc
              · exact absurd ⟨post, by rw [ht]; rfl⟩ hc
            · left; exact List.length_pos_iff.2 hp0
          rw [this]; rfl
    unfold formatrs overwriteWith
    dsimp only
    rw [hw]; rfl
  · intro ps hp ho ha hT hl
    have hw := format_ahead hp s 0 s.size v rfl hin hT (by omega) ha (fun b w g => ⟨(ho b w g).1, by have := (ho b w g).2; unfold In; omega⟩) hl
    have hw2 : WF { s with mem := place s.mem 0 (argsText s.mem ps) } := by unfold WF; dsimp only; rw [place_length (by omega)]; exact hs'
    unfold formatrs overwriteWith
    dsimp only
    rw [hw, Res.ok_bind]
    dsimp only
    rw [resize_shrink hw2 hT, if_neg (by omega)]
    refine ⟨_, rfl, ?_⟩
    have hcont : content { s with mem := (if s.term then (place s.mem 0 (argsText s.mem ps)).set (argsText s.mem ps).length 0 else place s.mem 0 (argsText s.mem ps)), size := (argsText s.mem ps).length } = argsText s.mem ps := by
      unfold content
      dsimp only
      have ht := text_place s.mem (argsText s.mem ps)
      split
      · rw [List.take_set, List.set_eq_of_length_le (by simp), ht]
      · exact ht
    have := hp.subst (m := s.mem)
    rw [← hcont] at this
    exact this

/-- The format text "<{}>" at the end of the container, with the first character as argument. -/
example : Pieces (S "<{}>") [.ext (S "Q")] [.ext (S "<"), .ext (S "Q"), .ext (S ">")] ∧
    formatrs false (fun n => n) (.own 0 ⟨3, 4⟩) [.ext (S "Q")] 1 ⟨false, 0, S "abc<{}>", 7⟩ = .ok ⟨false, 0, S "<Q><{}>", 3⟩ ∧
    formatrs true (fun n => n) (.own 0 ⟨3, 4⟩) [.ext (S "Q")] 1 ⟨false, 0, S "abc<{}>", 7⟩ = .abort :=
  ⟨.step (pre := [60]) (post := [62]) (fun i hi => by
    obtain rfl : i = 0 := by simpa using hi
    rintro ⟨pre, post, h, hl⟩
    obtain rfl := List.length_eq_zero_iff.1 hl
    cases h) .noargs, by decide +kernel, by decide +kernel⟩

/-- The format text "{}-{}" after one character: with arguments of two characters it is overwritten, but only after it was read.  With an argument of three characters the text between the marks would have to
be copied onto itself. -/
example : FormatAhead (S "x{}-{}") 1 0 [.ext [], .ext (S "12"), .ext (S "-"), .ext (S "34"), .ext []] ∧
    formatrs false (fun n => n) (.own 0 ⟨1, 5⟩) [.ext (S "12"), .ext (S "34")] 1 ⟨false, 0, S "x{}-{}", 6⟩ = .ok ⟨false, 0, S "12-34}", 5⟩ ∧
    formatrs false (fun n => n) (.own 0 ⟨1, 5⟩) [.ext (S "123"), .ext (S "34")] 1 ⟨false, 0, S "x{}-{}", 6⟩ = .ub :=
  ⟨⟨.inl rfl, by decide, .inr (by decide), by decide, .inl rfl⟩, by decide +kernel, by decide +kernel⟩

/-- The container has "ab" and room for more: catrs(&s, "xy", s.first(1)) gives "xyx" instead of "xya", and no assertion notices. -/
example : WF ⟨true, 0, S "ab\x00______", 2⟩ ∧ Own ⟨true, 0, S "ab\x00______", 2⟩ [.ext (S "xy"), .own 0 ⟨0, 1⟩] ∧
    cutText 2 (S "ab\x00______") [] [.ext (S "xy"), .own 0 ⟨0, 1⟩] = S "xy" ∧ mixText (S "xy") [] [.ext (S "xy"), .own 0 ⟨0, 1⟩] = S "xyx" ∧
    catrs true (fun n => n) [.ext (S "xy"), .own 0 ⟨0, 1⟩] 2 ⟨true, 0, S "ab\x00______", 2⟩ = .ok ⟨true, 0, S "xyx\x00_____", 3⟩ := by
  refine ⟨by unfold WF; decide, fun b v h => ?_, by decide +kernel, by decide +kernel, by decide +kernel⟩
  simp only [List.mem_cons, List.not_mem_nil, or_false, Arg.own.injEq, reduceCtorEq, false_or] at h
  obtain ⟨rfl, rfl⟩ := h
  decide
example : CutFine true 2 0 [.ext (S "xy"), .own 0 ⟨0, 1⟩] ∧ AllFine true 3 0 [.ext (S "xy"), .own 0 ⟨0, 1⟩] := by
  refine ⟨fun _ => ⟨fun h => absurd h (by decide), fun _ => .inl (by decide)⟩, ?_⟩
  unfold AllFine AllFine Fine
  exact ⟨.inl (by decide), trivial⟩

end C4.Alias
