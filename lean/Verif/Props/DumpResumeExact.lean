import Verif.Props.DumpResume
/-
Properties C65 and C66, exactly: what the sink has received after any history of buffers, for any arguments (strings among them), and
so exactly when the texts are sent once each.
-/
namespace C4
open Spec

/-! ### C65: cat_dump_resume -/

/-- Does the code count the argument as sent with a buffer of `n` characters? -/
def Spec.counted (n : Nat) (p : DItem) : Bool := decide (need p ≤ n)

theorem counted_fits {n : Nat} (h : 0 < n) : counted n = fits n := by
  funext p
  have := fits_iff (p := p) h
  unfold counted
  cases hf : fits n p <;> simp [hf] at this ⊢ <;> omega

theorem catResumeFrom_empty (l : List DItem) (h : DItems l) (curr : Nat) (r : DumpResults) (hc : r.argfail ≤ curr) :
    ∃ r', catResumeFrom curr r [] (l.map (·.1)) = .ok (r', (l.filter (fits 0)).map (·.2)) ∧
      r'.argfail = (if curr = r.argfail then curr + (l.takeWhile (counted 0)).length else r.argfail) ∧
      r'.bufsize = max r.bufsize (req l) := by
  induction l generalizing curr r with
  | nil => exact ⟨r, by simp [catResumeFrom], by simp; omega, by simp [req]⟩
  | cons p l ih =>
    obtain ⟨b, e, hb⟩ := dump_shows h.cons.1 []
    have hb0 : b = [] := List.length_eq_zero_iff.mp (by simpa using hb)
    subst hb0
    have hw : r.writeArg curr = true := (writeArg_iff r curr).mpr hc
    simp only [List.map_cons, catResumeFrom, catResume1, hw, if_true]
    rw [e, Res.ok_bind, Res.ok_bind]
    have hout : ∀ o : Chunks, (if fits ([] : List Nat).length p = true then [p.2] else []) ++ (l.filter (fits 0)).map (·.2) =
        ((p :: l).filter (fits 0)).map (·.2) := by
      intro _
      by_cases hf : fits 0 p = true <;> simp [hf]
    by_cases hk : curr = r.argfail ∧ need p ≤ ([] : List Nat).length
    · obtain ⟨r', e', ha, hbs⟩ := ih h.cons.2 (curr + 1) (({ r with lastok := some curr } : DumpResults).grow (need p))
        (Nat.le_refl _)
      rw [grow_argfail, show ({ r with lastok := some curr } : DumpResults).argfail = curr + 1 from rfl, if_pos rfl] at ha
      simp only [hk, if_true, and_self]
      rw [hk.1] at e'
      have hn : need p = 0 := by have := hk.2; simp only [List.length_nil] at this; omega
      rw [e', Res.ok_bind]
      refine ⟨r', by simp only []; rw [hout []], ?_, ?_⟩
      · rw [ha, List.takeWhile_cons_of_pos (by simp [counted, hn]), List.length_cons, ← hk.1]
        omega
      · rw [hbs, grow_bufsize]; simp [req]
    · obtain ⟨r', e', ha, hbs⟩ := ih h.cons.2 (curr + 1) (r.grow (need p)) (by rw [grow_argfail]; omega)
      rw [grow_argfail, if_neg (by omega)] at ha
      simp only [hk, if_false]
      rw [e', Res.ok_bind]
      refine ⟨r', by simp only []; rw [hout []], ?_, ?_⟩
      · rw [ha]
        by_cases hcr : curr = r.argfail
        · have hn : ¬ need p ≤ 0 := fun g => hk ⟨hcr, g⟩
          rw [if_pos hcr, List.takeWhile_cons_of_neg (by simp [counted]; omega), List.length_nil, hcr, Nat.add_zero]
        · rw [if_neg hcr]
      · rw [hbs, grow_bufsize]; simp [req]

/-- The first call, with any buffer: it sends the arguments that fit, wherever they are, and counts those before the first that does
not fit. -/
theorem catDumpResume_first (l : List DItem) (h : DItems l) (buf : List Nat) :
    ∃ r, catDumpResume (l.map (·.1)) {} buf = .ok (r, (l.filter (fits buf.length)).map (·.2)) ∧
      r.argfail = (l.takeWhile (counted buf.length)).length ∧ r.bufsize = req l := by
  by_cases h0 : 0 < buf.length
  · obtain ⟨r, e, ha, hb⟩ := catDumpResume_spec l h {} buf h0 (Nat.zero_le _)
    rw [show (DumpResults.argfail {}) = 0 from rfl] at e ha hb
    rw [List.drop_zero] at e ha hb
    exact ⟨r, e, by rw [ha, counted_fits h0, Nat.zero_add], by rw [hb]; simp⟩
  · have hb0 : buf = [] := List.length_eq_zero_iff.mp (by omega)
    subst hb0
    obtain ⟨r, e, ha, hb⟩ := catResumeFrom_empty l h 0 {} (Nat.le_refl _)
    exact ⟨r, by simpa [catDumpResume] using e, by simpa [DumpResults.argfail] using ha, by rw [hb]; simp⟩

theorem catLoop_rest (l : List DItem) (h : DItems l) (hne : l ≠ []) (bufs : List (List Nat)) (r : DumpResults)
    (hr : r.argfail ≤ l.length - 1) (hb : r.bufsize = req l) (h0 : 0 < req l) :
    ∃ r', resumeLoop (catDumpResume (l.map (·.1))) (l.length - 1) bufs r =
        .ok (r', if ∀ b ∈ bufs, b.length < req l then [] else (l.drop r.argfail).map (·.2)) ∧
      (r'.successUntil (l.length - 1) = true ↔ ∃ b ∈ bufs, req l ≤ b.length) := by
  have hpos : 0 < l.length := List.length_pos_iff.mpr hne
  induction bufs with
  | nil =>
    refine ⟨r, by simp [resumeLoop], ?_⟩
    rw [success_iff]
    constructor
    · intro g; omega
    · rintro ⟨b, hb, _⟩; cases hb
  | cons b bs ih =>
    simp only [resumeLoop]
    by_cases hlt : b.length < req l
    · have e : catDumpResume (l.map (·.1)) r b = .ok (r, []) := by simp [catDumpResume, hb, hlt]
      have hs : ¬ r.successUntil (l.length - 1) = true := by rw [success_iff]; omega
      rw [e, Res.ok_bind]
      simp only [hs, Bool.false_eq_true, if_false]
      obtain ⟨r', e', hs'⟩ := ih
      rw [e', Res.ok_bind]
      refine ⟨r', ?_, ?_⟩
      · simp only [List.mem_cons, forall_eq_or_imp, hlt, true_and, List.nil_append]
      · rw [hs']
        simp only [List.mem_cons, exists_eq_or_imp]
        constructor
        · exact .inr
        · rintro (g | g)
          · omega
          · exact g
    · obtain ⟨r', e, ha, _⟩ := catDumpResume_spec l h r b (by omega) (by omega)
      have hall : ∀ p ∈ l.drop r.argfail, fits b.length p = true := fun p hp =>
        fits_of_req (l := l) (by omega) (by omega) p (List.mem_of_mem_drop hp)
      rw [takeWhile_all hall, List.length_drop] at ha
      rw [List.filter_eq_self.mpr hall] at e
      have hs : r'.successUntil (l.length - 1) = true := by
        rw [success_iff, ha]
        clear e ha ih
        omega
      rw [e, Res.ok_bind]
      simp only [hs, if_true]
      refine ⟨r', ?_, ?_⟩
      · rw [if_neg]
        intro g
        exact hlt (g b (by simp))
      · rw [hs]
        exact ⟨fun _ => ⟨b, by simp, by omega⟩, fun _ => rfl⟩

/-- **C65**, exactly, for any arguments and any history of buffers: the first call sends the arguments that fit in the first buffer,
wherever they are; the calls after it send nothing until a buffer is as large as the largest text of a value; that call sends again
everything from the first argument that did not fit.  So success is reported exactly if everything fit at first or a later buffer is
large enough. -/
theorem C65_history_exact (l : List DItem) (h : DItems l) (hne : l ≠ []) (b : List Nat) (bs : List (List Nat)) :
    ∃ r, resumeLoop (catDumpResume (l.map (·.1))) (l.length - 1) (b :: bs) {} =
        .ok (r, (l.filter (fits b.length)).map (·.2) ++
          (if req l ≤ b.length ∨ ∀ c ∈ bs, c.length < req l then [] else (l.dropWhile (counted b.length)).map (·.2))) ∧
      (r.successUntil (l.length - 1) = true ↔ ∃ c ∈ b :: bs, req l ≤ c.length) := by
  have hpos : 0 < l.length := List.length_pos_iff.mpr hne
  obtain ⟨r, e, ha, hb⟩ := catDumpResume_first l h b
  have hdrop : l.drop (l.takeWhile (counted b.length)).length = l.dropWhile (counted b.length) := by
    have hpre : l.takeWhile (counted b.length) ++ l.dropWhile (counted b.length) = l := List.takeWhile_append_dropWhile
    calc l.drop (l.takeWhile (counted b.length)).length
        = (l.takeWhile (counted b.length) ++ l.dropWhile (counted b.length)).drop (l.takeWhile (counted b.length)).length := by rw [hpre]
      _ = l.dropWhile (counted b.length) := List.drop_left
  have hle : ∀ k : List DItem, req k ≤ b.length ↔ ∀ p ∈ k, counted b.length p = true := by
    intro k
    induction k with
    | nil => simp [req]
    | cons p k ih =>
      simp only [req, List.mem_cons, forall_eq_or_imp]
      rw [← ih]
      simp only [counted, decide_eq_true_eq]
      omega
  simp only [resumeLoop]
  rw [e, Res.ok_bind]
  by_cases hs : r.successUntil (l.length - 1) = true
  · have hs' := (success_iff _ _).mp hs
    have hall : req l ≤ b.length := by
      rw [hle]
      have : l.takeWhile (counted b.length) = l := by
        apply (List.takeWhile_prefix (counted b.length)).eq_of_length
        have := (List.takeWhile_prefix (l := l) (counted b.length)).length_le
        omega
      intro p hp
      rw [← this] at hp
      have hmem : ∀ k : List DItem, p ∈ k.takeWhile (counted b.length) → counted b.length p = true := by
        intro k
        induction k with
        | nil => intro g; cases g
        | cons q k ih =>
          by_cases hq : counted b.length q = true
          · rw [List.takeWhile_cons_of_pos hq]
            intro g
            rcases List.mem_cons.mp g with rfl | g
            · exact hq
            · exact ih g
          · rw [List.takeWhile_cons_of_neg hq]; intro g; cases g
      exact hmem l hp
    simp only [hs, if_true]
    refine ⟨r, by rw [if_pos (.inl hall), List.append_nil], ?_⟩
    rw [hs]
    exact ⟨fun _ => ⟨b, by simp, hall⟩, fun _ => rfl⟩
  · have hnall : ¬ req l ≤ b.length := by
      intro g
      apply hs
      rw [success_iff, ha, takeWhile_all ((hle l).mp g)]
      omega
    have hs' := mt (success_iff r (l.length - 1)).mpr hs
    simp only [hs, Bool.false_eq_true, if_false]
    obtain ⟨r', e', hsu⟩ := catLoop_rest l h hne bs r (by omega) hb (by omega)
    rw [e', Res.ok_bind]
    refine ⟨r', ?_, ?_⟩
    · rw [ha, hdrop]
      by_cases hc : ∀ c ∈ bs, c.length < req l
      · rw [if_pos hc, if_pos (.inr hc)]
      · rw [if_neg hc, if_neg (by rintro (g | g); exacts [hnall g, hc g])]
    · rw [hsu]
      simp only [List.mem_cons, exists_eq_or_imp, hnall, false_or]

example : ∃ r, resumeLoop (catDumpResume [dInt 12345, .str (S "x")]) 1 [S "...", S "....", S "....."] {} =
    .ok (r, [S "x"] ++ [S "12345", S "x"]) := ⟨⟨5, some 1⟩, by decide +kernel⟩
example : [((dInt 12345, S "12345") : DItem), (.str (S "x"), S "x")].filter (fits 3) = [(.str (S "x"), S "x")] := rfl
example : ((dInt 12345, S "12345") : DItem) ∈ [((dInt 12345, S "12345") : DItem), (.str (S "x"), S "x")].dropWhile (counted 3) := by
  simp [List.dropWhile, counted, need, dInt, S]

/-! ### C66: catsep_dump_resume -/

/-- Where the last argument that needs no buffer (a string, or a value with an empty text) ends: the number of arguments up to and with
it, 0 if there is none. -/
def Spec.lastFree (l : List DItem) : Nat := (l.reverse.dropWhile (fun p => decide (need p ≠ 0))).length

theorem lastFree_cons (p : DItem) (l : List DItem) :
    lastFree (p :: l) = if lastFree l = 0 then (if need p = 0 then 1 else 0) else lastFree l + 1 := by
  unfold lastFree
  rw [List.reverse_cons, List.dropWhile_append]
  by_cases h : l.reverse.dropWhile (fun p => decide (need p ≠ 0)) = []
  · rw [h]
    simp only [List.isEmpty_nil, if_true, List.length_nil]
    by_cases hp : need p = 0
    · rw [List.dropWhile_cons_of_neg (by simp [hp])]; simp [hp]
    · rw [List.dropWhile_cons_of_pos (by simp [hp])]; simp [hp]
  · have h1 : (l.reverse.dropWhile (fun p => decide (need p ≠ 0))).isEmpty = false := by
      cases hx : l.reverse.dropWhile (fun p => decide (need p ≠ 0)) with
      | nil => exact absurd hx h
      | cons _ _ => rfl
    have h2 : ¬ (l.reverse.dropWhile (fun p => decide (need p ≠ 0))).length = 0 := mt List.length_eq_zero_iff.mp h
    rw [h1, if_neg h2, if_neg (by decide), List.length_append]
    rfl

theorem lastFree_le (l : List DItem) : lastFree l ≤ l.length := by
  unfold lastFree
  have := (List.dropWhile_sublist (l := l.reverse) (fun p : DItem => decide (need p ≠ 0))).length_le
  rwa [List.length_reverse] at this

theorem fits_none {p : DItem} (h : fits 0 p = true) : p.2 = [] := by
  obtain ⟨a, t⟩ := p
  cases a with
  | val f => simpa [fits] using h
  | str s => simp [fits] at h

/-- One argument with no room left. -/
theorem catsepResume1_dead {p : DItem} (h : p.1.Shows p.2) (curr : Nat) (r : DumpResults) (hc : r.argfail ≤ curr) :
    ∃ r' o, catsepResume1 curr r [] p.1 = .ok (r', [], o) ∧ o.flatten = [] ∧
      r'.argfail = if need p = 0 then curr + 1 else r.argfail := by
  obtain ⟨b, e, hb⟩ := dump_shows h []
  have hb0 : b = [] := List.length_eq_zero_iff.mp (by simpa using hb)
  subst hb0
  have hw := (writeArg_iff r curr).mpr hc
  simp only [catsepResume1, hw, if_true]
  rw [e, Res.ok_bind]
  have ho : (if fits ([] : List Nat).length p = true then [p.2] else []).flatten = ([] : List Nat) := by
    by_cases hf : fits 0 p = true
    · simp [hf, fits_none hf]
    · simp [hf]
  by_cases hn : need p = 0
  · have hle : need p ≤ ([] : List Nat).length := by simp [hn]
    simp only [hle, if_true]
    exact ⟨_, _, rfl, ho, by rw [if_pos hn]; rfl⟩
  · have hle : ¬ need p ≤ ([] : List Nat).length := by simp [hn]
    simp only [hle, if_false]
    exact ⟨_, _, rfl, ho, by rw [if_neg hn]; rfl⟩

theorem seqResume_noroom (l : List DItem) (h : DItems l) (curr : Nat) (r : DumpResults) (hc : r.argfail ≤ curr) :
    ∃ r' o, seqResume curr r [] (l.map (·.1)) = .ok (r', o) ∧ o.flatten = [] ∧
      r'.argfail = if lastFree l = 0 then r.argfail else curr + lastFree l := by
  induction l generalizing curr r with
  | nil => exact ⟨r, [], rfl, rfl, rfl⟩
  | cons p l ih =>
    obtain ⟨r1, o1, e1, ho1, ha1⟩ := catsepResume1_dead h.cons.1 curr r hc
    obtain ⟨r2, o2, e2, ho2, ha2⟩ := ih h.cons.2 (curr + 1) r1 (by rw [ha1]; split <;> omega)
    simp only [List.map_cons, seqResume]
    rw [e1, Res.ok_bind]
    simp only []
    rw [e2, Res.ok_bind]
    refine ⟨r2, o1 ++ o2, rfl, by rw [List.flatten_append, ho1, ho2]; rfl, ?_⟩
    rw [ha2, lastFree_cons, ha1]
    by_cases hl : lastFree l = 0
    · by_cases hn : need p = 0 <;> simp [hl, hn]
    · simp [hl]; omega

/-- One call with any buffer and any arguments: it sends what fits up to the first argument that does not, and counts everything up to
the last argument that needs no buffer. -/
theorem seqResume_any (l : List DItem) (h : DItems l) (curr : Nat) (r : DumpResults) (buf : List Nat) (hc : curr ≤ r.argfail) :
    ∃ r' o, seqResume curr r buf (l.map (·.1)) = .ok (r', o) ∧
      o.flatten = joined ((l.drop (r.argfail - curr)).takeWhile (fits buf.length)) ∧
      r'.argfail = max (r.argfail + ((l.drop (r.argfail - curr)).takeWhile (fits buf.length)).length) (curr + lastFree l) := by
  induction l generalizing curr r buf with
  | nil => exact ⟨r, [], by simp [seqResume], by simp, by simp [lastFree]; omega⟩
  | cons p l ih =>
    have hlf := lastFree_cons p l
    by_cases hlt : curr < r.argfail
    · have hw : r.writeArg curr = false := by
        have := mt (writeArg_iff r curr).mp (by omega)
        simpa using this
      obtain ⟨r', o, e', ho, ha⟩ := ih h.cons.2 (curr + 1) r buf (by omega)
      simp only [List.map_cons, seqResume, catsepResume1, hw, Bool.false_eq_true, if_false]
      rw [Res.ok_bind]
      simp only []
      rw [e', Res.ok_bind]
      refine ⟨r', o, rfl, by rw [drop_cons_of_lt p l hlt]; exact ho, ?_⟩
      rw [drop_cons_of_lt p l hlt, ha, hlf]
      split
      · split <;> omega
      · omega
    · have hz : r.argfail - curr = 0 := by omega
      have hcr : r.argfail = curr := by omega
      by_cases hf : fits buf.length p = true
      · obtain ⟨r1, b, e1, hb, h1⟩ := (catsepResume1_spec h.cons.1 curr r buf (.inr hf)).2.1 (by omega) hf
        obtain ⟨r', o, e', ho, ha⟩ := ih h.cons.2 (curr + 1) r1 b (by omega)
        simp only [List.map_cons, seqResume]
        rw [e1, Res.ok_bind]
        simp only []
        rw [e', Res.ok_bind]
        have hz1 : r1.argfail - (curr + 1) = 0 := by omega
        rw [hz1, hb, List.drop_zero] at ho ha
        refine ⟨r', [p.2] ++ o, rfl, ?_, ?_⟩
        · rw [hz, List.drop_zero, List.takeWhile_cons_of_pos hf]
          rw [List.flatten_append, ho]
          simp [joined]
        · rw [hz, List.drop_zero, List.takeWhile_cons_of_pos hf, ha, hlf, List.length_cons]
          split
          · split <;> omega
          · omega
      · rw [hz, List.drop_zero, List.takeWhile_cons_of_neg hf]
        by_cases h0 : 0 < buf.length
        · have hn : ¬ need p ≤ buf.length := mt (fits_iff h0).mpr hf
          obtain ⟨b, e, hb⟩ := dump_shows h.cons.1 buf
          have hw := (writeArg_iff r curr).mpr (by omega)
          obtain ⟨r', o, e', ho, ha⟩ := seqResume_noroom l h.cons.2 (curr + 1) (r.grow (need p)) (by rw [grow_argfail]; omega)
          simp only [List.map_cons, seqResume, catsepResume1, hw, if_true]
          rw [e, Res.ok_bind]
          simp only [hn, if_false, hf, Bool.false_eq_true, Res.ok_bind]
          rw [e', Res.ok_bind]
          refine ⟨r', o, rfl, ho, ?_⟩
          rw [ha, hlf, grow_argfail, if_neg (by omega : ¬ need p = 0)]
          split <;> simp <;> omega
        · have hb0 : buf = [] := List.length_eq_zero_iff.mp (by omega)
          subst hb0
          obtain ⟨r', o, e', ho, ha⟩ := seqResume_noroom (p :: l) h curr r (by omega)
          refine ⟨r', o, e', ho, ?_⟩
          rw [ha]
          split <;> simp <;> omega

theorem catsepDumpResume_any (sep : DItem) (hs : sep.1.Shows sep.2) (l : List DItem) (h : DItems l) (r : DumpResults) (buf : List Nat) :
    ∃ r' o, catsepDumpResume sep.1 (l.map (·.1)) r buf = .ok (r', o) ∧
      o.flatten = joined (((inter sep l).drop r.argfail).takeWhile (fits buf.length)) ∧
      r'.argfail = max (r.argfail + (((inter sep l).drop r.argfail).takeWhile (fits buf.length)).length) (lastFree (inter sep l)) := by
  obtain ⟨r', o, e, ho, ha⟩ := seqResume_any (inter sep l) (inter_items hs h) 0 r buf (Nat.zero_le _)
  rw [inter_map] at e
  refine ⟨r', o, by rw [catsepDumpResume, catsepResumeFrom_eq]; exact e, by simpa using ho, by simpa using ha⟩

theorem joined_append (a b : List DItem) : joined (a ++ b) = joined a ++ joined b := by simp [joined]

/-- A list without a stretch has the same text exactly if the stretch has no text. -/
theorem joined_gap (J : List DItem) {k m : Nat} (h : k ≤ m) :
    joined (J.take k) ++ joined (J.drop m) = joined J ↔ joined ((J.take m).drop k) = [] := by
  have hsplit : joined J = joined (J.take k) ++ (joined ((J.take m).drop k) ++ joined (J.drop m)) := by
    rw [← joined_append, ← joined_append]
    congr 1
    have e1 : J.take k = (J.take m).take k := by rw [List.take_take, Nat.min_eq_left h]
    rw [← List.append_assoc, e1, List.take_append_drop, List.take_append_drop]
  rw [hsplit, List.append_cancel_left_eq]
  constructor
  · intro g
    have := congrArg List.length g
    rw [List.length_append] at this
    exact List.length_eq_zero_iff.mp (by omega)
  · intro g; rw [g, List.nil_append]

/-- Once everything up to the last argument that needs no buffer is counted, each call sends what it counts. -/
theorem resume_tail (ps : List DItem) (call : DumpResults → List Nat → Res (DumpResults × Chunks)) (k m : Nat)
    (hpos : 0 < ps.length)
    (hcall : ∀ r b, m ≤ r.argfail → r.argfail ≤ ps.length - 1 → ∃ r' o n, call r b = .ok (r', o) ∧
      o.flatten = joined ((ps.drop r.argfail).take n) ∧ r'.argfail = r.argfail + n ∧ r'.argfail ≤ ps.length)
    (bufs : List (List Nat)) (r : DumpResults) (o : Chunks) (hm : m ≤ r.argfail) (hr : r.argfail ≤ ps.length - 1)
    (ho : o.flatten = joined (ps.take k) ++ joined ((ps.take r.argfail).drop m)) :
    ∃ r' o', resumeLoop call (ps.length - 1) bufs r = .ok (r', o') ∧
      (o ++ o').flatten = joined (ps.take k) ++ joined ((ps.take r'.argfail).drop m) ∧ m ≤ r'.argfail ∧ r'.argfail ≤ ps.length := by
  obtain ⟨r', o', e, h1, h2, h3⟩ := resumeLoop_inv call (ps.length - 1)
    (fun r o => o.flatten = joined (ps.take k) ++ joined ((ps.take r.argfail).drop m) ∧ m ≤ r.argfail ∧ r.argfail ≤ ps.length) bufs r o
    (by
      intro r b o _ hi hle
      obtain ⟨hi, hm, hl⟩ := hi
      obtain ⟨r', o', n, e, ho', ha, hl'⟩ := hcall r b hm hle
      refine ⟨r', o', e, ?_, by omega, hl'⟩
      rw [List.flatten_append, hi, ho', ha, List.take_add, List.drop_append_of_le_length (by rw [List.length_take]; omega),
        joined_append, List.append_assoc])
    ⟨ho, hm, by omega⟩ hr
  exact ⟨r', o', e, h1, h2, h3⟩

theorem takeWhile_eq_take {α : Type} (f : α → Bool) (l : List α) : l.takeWhile f = l.take (l.takeWhile f).length :=
  List.prefix_iff_eq_take.mp (List.takeWhile_prefix f)

/-- **C66** for `catsep_dump_resume`, exactly, for any arguments, separator and history of buffers.  Let `k` be the number of items
(arguments and separators in turn) at the start that fit in the first buffer, and `m` the end of the last item that needs no buffer (a
string or an empty text), if that is later.  The items between `k` and `m` are never sent; all the others that are counted as sent
have been sent once each, in order. -/
theorem C66_catsep_history_exact (sep : DItem) (hs : sep.1.Shows sep.2) (l : List DItem) (h : DItems l) (hne : l ≠ [])
    (b : List Nat) (bs : List (List Nat)) (k m : Nat) (hk : k = ((inter sep l).takeWhile (fits b.length)).length)
    (hm : m = max k (lastFree (inter sep l))) :
    ∃ r o, resumeLoop (catsepDumpResume sep.1 (l.map (·.1))) ((inter sep l).length - 1) (b :: bs) {} = .ok (r, o) ∧
      m ≤ r.argfail ∧ o.flatten = joined ((inter sep l).take k) ++ joined (((inter sep l).take r.argfail).drop m) ∧
      (r.successUntil ((inter sep l).length - 1) = true →
        o.flatten = joined ((inter sep l).take k) ++ joined ((inter sep l).drop m) ∧
        (o.flatten = separated sep.2 (l.map (·.2)) ↔ joined (((inter sep l).take m).drop k) = [])) := by
  have hpos : 0 < (inter sep l).length := by
    cases l with
    | nil => exact absurd rfl hne
    | cons a l => cases l <;> simp [inter]
  have hsep : joined (inter sep l) = separated sep.2 (l.map (·.2)) := by rw [joined, inter_map, inter_flatten]
  revert hpos hsep
  have hcall := catsepDumpResume_any sep hs l h
  revert hcall hk hm
  generalize catsepDumpResume sep.1 (l.map (·.1)) = call
  generalize separated sep.2 (l.map (·.2)) = full
  generalize inter sep l = J
  intro hk hm hcall hpos hsep
  have hkl : k ≤ J.length := by rw [hk]; exact (List.takeWhile_prefix _).length_le
  have hml : m ≤ J.length := by have := lastFree_le J; omega
  have hfin : ∀ (r : DumpResults) (o : Chunks), m ≤ r.argfail → o.flatten = joined (J.take k) ++ joined ((J.take r.argfail).drop m) →
      r.successUntil (J.length - 1) = true → o.flatten = joined (J.take k) ++ joined (J.drop m) ∧
        (o.flatten = full ↔ joined ((J.take m).drop k) = []) := by
    intro r o h1 h2 h3
    rw [success_iff] at h3
    rw [List.take_of_length_le (by omega : J.length ≤ r.argfail)] at h2
    refine ⟨h2, ?_⟩
    rw [h2, ← hsep]
    exact joined_gap J (by omega)
  obtain ⟨r1, o1, e1, ho1, ha1⟩ := hcall {} b
  rw [show (DumpResults.argfail {}) = 0 from rfl, List.drop_zero] at ho1 ha1
  rw [← hk, Nat.zero_add, ← hm] at ha1
  rw [takeWhile_eq_take, ← hk] at ho1
  have ho1' : o1.flatten = joined (J.take k) ++ joined ((J.take r1.argfail).drop m) := by
    rw [ho1, ha1, List.drop_eq_nil_of_le (by rw [List.length_take]; omega)]
    simp [joined]
  simp only [resumeLoop]
  rw [e1, Res.ok_bind]
  by_cases hsu : r1.successUntil (J.length - 1) = true
  · simp only [hsu, if_true]
    exact ⟨r1, o1, rfl, by omega, ho1', fun g => hfin r1 o1 (by omega) ho1' g⟩
  · have hs' := mt (success_iff r1 (J.length - 1)).mpr hsu
    simp only [hsu, Bool.false_eq_true, if_false]
    obtain ⟨r', o', e', h1, h2, _⟩ := resume_tail J call k m hpos (by
      intro r c hmr hr
      obtain ⟨r', o', e', ho', ha'⟩ := hcall r c
      have hle := (List.takeWhile_prefix (l := J.drop r.argfail) (fits c.length)).length_le
      rw [List.length_drop] at hle
      refine ⟨r', o', ((J.drop r.argfail).takeWhile (fits c.length)).length, e', ?_, by omega, by omega⟩
      rw [ho']
      congr 1
      exact takeWhile_eq_take _ _) bs r1 o1 (by omega) (by omega) ho1'
    rw [e', Res.ok_bind]
    exact ⟨r', o1 ++ o', rfl, h2, h1, fun g => hfin r' _ h2 h1 g⟩

/-- The text and the number of `C66_refuted_catsep`: of the three items `12345`, `, ` and `6` none is sent with 3 characters, and the
first two are lost. -/
example : ((inter (.str (S ", "), S ", ") [(dInt 12345, S "12345"), (dInt 6, S "6")]).takeWhile (fits 3)).length = 0 ∧
    lastFree (inter (.str (S ", "), S ", ") [(dInt 12345, S "12345"), (dInt 6, S "6")]) = 2 := by
  simp [inter, lastFree, fits, need, dInt, S, List.dropWhile]

/-! ### C66: format_dump_resume -/

/-- The end of the last argument that needs no buffer, counted in pieces (text, argument, text, …, text). -/
def Spec.lastFreeArg (l : List DItem) : Nat := 2 * lastFree l

theorem formatResume_noroom {fmt : List Nat} {l ps : List DItem} (hp : FPieces fmt l ps) :
    ∀ (curr : Nat) (r : DumpResults), DItems l →
    ∃ r' o, formatResumeFrom curr r [] fmt (l.map (·.1)) = .ok (r', o) ∧ o.flatten = [] ∧
      r'.argfail = max r.argfail (if lastFree l = 0 then 0 else curr + 2 * lastFree l) := by
  induction hp with
  | noargs => intro curr r _; exact ⟨r, [], rfl, rfl, by simp [lastFree]⟩
  | @step pre post p l ps hpre hps ih =>
    intro curr r h
    simp only [List.map_cons, formatResumeFrom]
    rw [findS_mark hpre, Res.ok_bind]
    simp only [dumpText_dead, ite_self, formatResumeArg_eq, drop_mark]
    have hlf := lastFree_cons p l
    by_cases hlt : curr + 1 < r.argfail
    · have hw : r.writeArg (curr + 1) = false := by
        have := mt (writeArg_iff r (curr + 1)).mp (by omega)
        simpa using this
      obtain ⟨r', o, e', ho, ha⟩ := ih (curr + 2) r h.cons.2
      simp only [catsepResume1, hw, Bool.false_eq_true, if_false]
      rw [Res.ok_bind]
      simp only []
      rw [e', Res.ok_bind]
      refine ⟨r', o, rfl, ho, ?_⟩
      rw [ha, hlf]
      by_cases hl : lastFree l = 0
      · rw [if_pos hl, if_pos hl]
        by_cases hn : need p = 0
        · rw [if_pos hn, if_neg (by omega)]; omega
        · rw [if_neg hn, if_pos rfl]
      · rw [if_neg hl, if_neg hl, if_neg (by omega)]; omega
    · obtain ⟨r1, o1, e1, ho1, ha1⟩ := catsepResume1_dead h.cons.1 (curr + 1) r (by omega)
      obtain ⟨r', o, e', ho, ha⟩ := ih (curr + 2) r1 h.cons.2
      rw [e1, Res.ok_bind]
      simp only []
      rw [e', Res.ok_bind]
      refine ⟨r', o1 ++ o, rfl, by rw [List.flatten_append, ho1, ho]; rfl, ?_⟩
      rw [ha, hlf, ha1]
      by_cases hl : lastFree l = 0
      · rw [if_pos hl, if_pos hl]
        by_cases hn : need p = 0
        · rw [if_pos hn, if_pos hn, if_neg (by omega)]; omega
        · rw [if_neg hn, if_neg hn, if_pos rfl]
      · simp only [if_neg hl, if_neg (show ¬ lastFree l + 1 = 0 by omega)]
        split <;> omega

theorem formatResume_any {fmt : List Nat} {l ps : List DItem} (hp : FPieces fmt l ps) :
    ∀ (curr : Nat) (r : DumpResults) (buf : List Nat), DItems l → 0 < buf.length → curr ≤ r.argfail →
      r.argfail ≤ curr + 2 * l.length →
    ∃ r' o, formatResumeFrom curr r buf fmt (l.map (·.1)) = .ok (r', o) ∧
      o.flatten = joined ((ps.drop (r.argfail - curr)).takeWhile (fits buf.length)) ∧
      r'.argfail = max (r.argfail + ((ps.drop (r.argfail - curr)).takeWhile (fits buf.length)).length) (curr + 2 * lastFree l) := by
  induction hp with
  | @noargs fmt =>
    intro curr r buf _ h0 hc1 hc2
    have hr : r.argfail = curr := by simp at hc2; omega
    have hf : fits buf.length (DArg.str fmt, fmt) = true := by simp [fits, h0]
    simp only [List.map_nil, formatResumeFrom, dumpText_alive _ _ _ _ h0]
    refine ⟨_, _, rfl, ?_, ?_⟩
    · rw [hr, Nat.sub_self, List.drop_zero, List.takeWhile_cons_of_pos hf]; simp [joined]
    · rw [hr, Nat.sub_self, List.drop_zero, List.takeWhile_cons_of_pos hf]
      simp only [lastFree, List.reverse_nil, List.dropWhile_nil, List.length_nil, List.takeWhile_nil, List.length_cons]
      show curr + 1 = _
      omega
  | @step pre post p l ps hpre hps ih =>
    intro curr r buf h h0 hc1 hc2
    simp only [List.map_cons, formatResumeFrom]
    rw [findS_mark hpre, Res.ok_bind]
    simp only [formatResumeArg_eq, drop_mark, take_mark, dumpText_alive _ _ _ _ h0]
    have hlf := lastFree_cons p l
    have hfpre : fits buf.length (DArg.str pre, pre) = true := by simp [fits, h0]
    simp only [List.length_cons] at hc2
    -- the argument and the rest, for results counting at least `curr + 1`
    have main : ∀ (pr : Chunks) (r1 : DumpResults), curr + 1 ≤ r1.argfail → r1.argfail ≤ curr + 2 * (l.length + 1) →
        ∃ r' o, (do
          let (r, b, oa) ← catsepResume1 (curr + 1) r1 buf p.1
          let (r, om) ← formatResumeFrom (curr + 2) r b post (l.map fun q : DItem => q.1)
          (Res.ok (r, pr ++ (oa ++ om)) : Res (DumpResults × Chunks))) = .ok (r', pr ++ o) ∧
        o.flatten = joined (((p :: ps).drop (r1.argfail - (curr + 1))).takeWhile (fits buf.length)) ∧
        r'.argfail = max (r1.argfail + (((p :: ps).drop (r1.argfail - (curr + 1))).takeWhile (fits buf.length)).length)
          (curr + 2 * lastFree (p :: l)) := by
      intro pr r1 g1 g2
      by_cases hlt : curr + 1 < r1.argfail
      · have hw : r1.writeArg (curr + 1) = false := by
          have := mt (writeArg_iff r1 (curr + 1)).mp (by omega)
          simpa using this
        obtain ⟨r', o, e', ho, ha⟩ := ih (curr + 2) r1 buf h.cons.2 h0 (by omega) (by omega)
        simp only [catsepResume1, hw, Bool.false_eq_true, if_false]
        rw [Res.ok_bind]
        simp only []
        rw [e', Res.ok_bind]
        refine ⟨r', o, rfl, by rw [drop_cons_of_lt p ps hlt]; exact ho, ?_⟩
        rw [drop_cons_of_lt p ps hlt, ha, hlf, show curr + 1 + 1 = curr + 2 from rfl]
        by_cases hl : lastFree l = 0
        · rw [if_pos hl]; split <;> omega
        · rw [if_neg hl]; omega
      · have hz : r1.argfail - (curr + 1) = 0 := by omega
        by_cases hf : fits buf.length p = true
        · obtain ⟨r2, b, e1, hb, h1⟩ := (catsepResume1_spec h.cons.1 (curr + 1) r1 buf (.inr hf)).2.1 (by omega) hf
          obtain ⟨r', o, e', ho, ha⟩ := ih (curr + 2) r2 b h.cons.2 (by omega) (by omega) (by omega)
          rw [e1, Res.ok_bind]
          simp only []
          rw [e', Res.ok_bind]
          have hz1 : r2.argfail - (curr + 2) = 0 := by omega
          rw [hz1, hb, List.drop_zero] at ho ha
          refine ⟨r', [p.2] ++ o, rfl, ?_, ?_⟩
          · rw [hz, List.drop_zero, List.takeWhile_cons_of_pos hf, List.flatten_append, ho]
            simp [joined]
          · rw [hz, List.drop_zero, List.takeWhile_cons_of_pos hf, ha, hlf, List.length_cons]
            by_cases hl : lastFree l = 0
            · rw [if_pos hl]; split <;> omega
            · rw [if_neg hl]; omega
        · have hn : ¬ need p ≤ buf.length := mt (fits_iff h0).mpr hf
          obtain ⟨b, e, hb⟩ := dump_shows h.cons.1 buf
          have hw := (writeArg_iff r1 (curr + 1)).mpr (by omega)
          obtain ⟨r', o, e', ho, ha⟩ := formatResume_noroom hps (curr + 2) (r1.grow (need p)) h.cons.2
          simp only [catsepResume1, hw, if_true]
          rw [e, Res.ok_bind]
          simp only [hn, if_false, hf, Bool.false_eq_true, Res.ok_bind]
          rw [e', Res.ok_bind]
          refine ⟨r', o, rfl, ?_, ?_⟩
          · rw [hz, List.drop_zero, List.takeWhile_cons_of_neg hf]; exact ho
          · rw [hz, List.drop_zero, List.takeWhile_cons_of_neg hf, ha, hlf, grow_argfail, if_neg (by omega : ¬ need p = 0)]
            by_cases hl : lastFree l = 0
            · rw [if_pos hl, if_pos hl, List.length_nil]; omega
            · rw [if_neg hl, if_neg hl, List.length_nil]; omega
    by_cases hw : r.writeArg curr = true
    · have hle := (writeArg_iff r curr).mp hw
      have hz : r.argfail - curr = 0 := by omega
      obtain ⟨r', o, e, ho, ha⟩ := main [pre] { r with lastok := some curr } (Nat.le_refl _) (by show curr + 1 ≤ _; omega)
      simp only [hw, if_true]
      rw [show (({ r with lastok := some curr } : DumpResults)).argfail = curr + 1 from rfl] at ho ha
      rw [Nat.sub_self, List.drop_zero] at ho ha
      refine ⟨r', [pre] ++ o, e, ?_, ?_⟩
      · rw [hz, List.drop_zero, List.takeWhile_cons_of_pos hfpre, List.flatten_append, ho]
        simp [joined]
      · rw [hz, List.drop_zero, List.takeWhile_cons_of_pos hfpre, ha, List.length_cons]
        omega
    · have hlt := mt (writeArg_iff r curr).mpr hw
      obtain ⟨r', o, e, ho, ha⟩ := main [] r (by omega) (by omega)
      simp only [hw, Bool.false_eq_true, if_false]
      refine ⟨r', o, e, ?_, ?_⟩
      · rw [drop_cons_of_lt _ (p :: ps) (by omega : curr < r.argfail)]; exact ho
      · rw [drop_cons_of_lt _ (p :: ps) (by omega : curr < r.argfail)]; exact ha

/-- **C66** for `format_dump_resume`, exactly, for any arguments and history of buffers, every argument having its mark.  Let `ps` be
the pieces of the output (text, argument, text, …, text), `k` the number of pieces at the start that fit in the first buffer, and `m`
the end of the last argument that needs no buffer (a string or an empty text), if that is later.  The pieces between `k` and `m` are
never sent; all the others that are counted as sent have been sent once each, in order. -/
theorem C66_format_history_exact (fmt out : List Nat) (l : List DItem) (h : DItems l) (hfill : Filled fmt (l.map (·.2)) out)
    (b : List Nat) (bs : List (List Nat)) :
    ∃ ps, FPieces fmt l ps ∧ joined ps = out ∧ ∀ k m, k = (ps.takeWhile (fits b.length)).length → m = max k (lastFreeArg l) →
    ∃ r o, resumeLoop (formatDumpResume fmt (l.map (·.1))) (2 * l.length) (b :: bs) {} = .ok (r, o) ∧
      m ≤ r.argfail ∧ o.flatten = joined (ps.take k) ++ joined ((ps.take r.argfail).drop m) ∧
      (r.successUntil (2 * l.length) = true → o.flatten = joined (ps.take k) ++ joined (ps.drop m) ∧
        (o.flatten = out ↔ joined ((ps.take m).drop k) = [])) := by
  obtain ⟨ps, hps, hj, hlen, _⟩ := Filled.pieces hfill l rfl
  refine ⟨ps, hps, hj, ?_⟩
  intro k m hk hm
  have hlf : 2 * lastFree l ≤ ps.length := by have := lastFree_le l; omega
  have hkl : k ≤ ps.length := by rw [hk]; exact (List.takeWhile_prefix _).length_le
  have hml : m ≤ ps.length := by unfold lastFreeArg at hm; omega
  rw [show 2 * l.length = ps.length - 1 by omega]
  -- one call
  have hcall : ∀ (r : DumpResults) (c : List Nat), r.argfail ≤ ps.length - 1 → ∃ r' o n,
      formatDumpResume fmt (l.map (·.1)) r c = .ok (r', o) ∧ o.flatten = joined ((ps.drop r.argfail).take n) ∧
      r.argfail + n ≤ ps.length ∧ r'.argfail = max (r.argfail + n) (2 * lastFree l) ∧
      (0 < c.length ∨ r.argfail = 0 → n = ((ps.drop r.argfail).takeWhile (fits c.length)).length) := by
    intro r c hr
    by_cases h0 : 0 < c.length
    · obtain ⟨r', o, e, ho, ha⟩ := formatResume_any hps 0 r c h h0 (Nat.zero_le _) (by omega)
      rw [Nat.sub_zero] at ho ha
      have hle := (List.takeWhile_prefix (l := ps.drop r.argfail) (fits c.length)).length_le
      rw [List.length_drop] at hle
      refine ⟨r', o, _, e, by rw [ho]; congr 1; exact takeWhile_eq_take _ _, by omega, by rw [ha, Nat.zero_add], fun _ => rfl⟩
    · have hc0 : c = [] := List.length_eq_zero_iff.mp (by omega)
      subst hc0
      obtain ⟨r', o, e, ho, ha⟩ := formatResume_noroom hps 0 r h
      refine ⟨r', o, 0, e, by rw [ho]; rfl, by omega, ?_, ?_⟩
      · rw [ha, Nat.add_zero]
        split <;> omega
      · intro g
        rw [g.resolve_left h0, List.drop_zero]
        cases hps with
        | noargs => simp [fits]
        | step => simp [fits]
  have hfin : ∀ (r : DumpResults) (o : Chunks), m ≤ r.argfail → o.flatten = joined (ps.take k) ++ joined ((ps.take r.argfail).drop m) →
      r.successUntil (ps.length - 1) = true → o.flatten = joined (ps.take k) ++ joined (ps.drop m) ∧
        (o.flatten = out ↔ joined ((ps.take m).drop k) = []) := by
    intro r o h1 h2 h3
    rw [success_iff] at h3
    rw [List.take_of_length_le (by omega : ps.length ≤ r.argfail)] at h2
    refine ⟨h2, ?_⟩
    rw [h2, ← hj]
    exact joined_gap ps (by omega)
  obtain ⟨r1, o1, n, e1, ho1, _, ha1, hn1⟩ := hcall {} b (Nat.zero_le _)
  rw [show (DumpResults.argfail {}) = 0 from rfl] at ho1 ha1 hn1
  rw [List.drop_zero] at ho1 hn1
  rw [hn1 (.inr rfl), ← hk] at ho1 ha1
  rw [Nat.zero_add] at ha1
  have hm1 : r1.argfail = m := by rw [ha1, hm]; rfl
  have ho1' : o1.flatten = joined (ps.take k) ++ joined ((ps.take r1.argfail).drop m) := by
    rw [ho1, hm1, List.drop_eq_nil_of_le (by rw [List.length_take]; omega)]
    simp [joined]
  simp only [resumeLoop]
  rw [e1, Res.ok_bind]
  by_cases hsu : r1.successUntil (ps.length - 1) = true
  · simp only [hsu, if_true]
    exact ⟨r1, o1, rfl, by omega, ho1', fun g => hfin r1 o1 (by omega) ho1' g⟩
  · have hs' := mt (success_iff r1 (ps.length - 1)).mpr hsu
    simp only [hsu, Bool.false_eq_true, if_false]
    obtain ⟨r', o', e', h1, h2, _⟩ := resume_tail ps (formatDumpResume fmt (l.map (·.1))) k m (by omega) (by
      intro r c hmr hr
      obtain ⟨r', o', n, e', ho', hnl, ha', _⟩ := hcall r c hr
      have : 2 * lastFree l ≤ m := by rw [hm]; exact Nat.le_max_right _ _
      exact ⟨r', o', n, e', ho', by omega, by omega⟩) bs r1 o1 (by omega) (by omega) ho1'
    rw [e', Res.ok_bind]
    exact ⟨r', o1 ++ o', rfl, h2, h1, fun g => hfin r' _ h2 h1 g⟩

/-- The case of `C66_refuted_format`: of the pieces (empty), `12345`, ` `, `x` and `!` one fits in 3 characters, and the next three are
lost. -/
example : FPieces (S "{} {}!") [(dInt 12345, S "12345"), (.str (S "x"), S "x")]
      [(.str [], []), (dInt 12345, S "12345"), (.str (S " "), S " "), (.str (S "x"), S "x"), (.str (S "!"), S "!")] ∧
    ([((.str [], []) : DItem), (dInt 12345, S "12345"), (.str (S " "), S " "), (.str (S "x"), S "x"), (.str (S "!"), S "!")].takeWhile
      (fits 3)).length = 1 ∧ lastFreeArg [(dInt 12345, S "12345"), (.str (S "x"), S "x")] = 4 := by
  refine ⟨FPieces.step (pre := []) (post := S " {}!") (by simp) (FPieces.step (pre := S " ") (post := S "!") ?_ FPieces.noargs),
    by simp [fits, dInt, S], by simp [lastFreeArg, lastFree, need]⟩
  intro i hi
  have : i = 0 := by simp [S] at hi; omega
  subst this
  rintro ⟨pre, post, e, hl⟩
  rw [List.length_eq_zero_iff.mp hl] at e
  simp [S, mark] at e

end C4
