import Verif.Props.Dump
/-
Properties C65 and C66: resuming dumps.  Both are false; this file has the counterexamples and what holds.
-/
namespace C4
open Spec

/-! ### Results -/

theorem writeArg_iff (r : DumpResults) (c : Nat) : r.writeArg c = true ↔ r.argfail ≤ c := by
  unfold DumpResults.writeArg DumpResults.argfail
  cases r.lastok <;> simp; omega

theorem success_iff (r : DumpResults) (e : Nat) : r.successUntil e = true ↔ e < r.argfail := by
  unfold DumpResults.successUntil DumpResults.argfail
  cases r.lastok <;> simp; omega

theorem grow_argfail (r : DumpResults) (n : Nat) : (r.grow n).argfail = r.argfail := rfl
theorem grow_bufsize (r : DumpResults) (n : Nat) : (r.grow n).bufsize = max r.bufsize n := by
  unfold DumpResults.grow
  simp only [max_code]

/-- Any invariant kept by every unsuccessful call is kept by the loop. -/
theorem resumeLoop_inv (call : DumpResults → List Nat → Res (DumpResults × Chunks)) (last : Nat)
    (I : DumpResults → Chunks → Prop) (bufs : List (List Nat)) (r : DumpResults) (o : Chunks)
    (hcall : ∀ r b o, b ∈ bufs → I r o → r.argfail ≤ last → ∃ r' o', call r b = .ok (r', o') ∧ I r' (o ++ o'))
    (h : I r o) (hr : r.argfail ≤ last) : ∃ r' o', resumeLoop call last bufs r = .ok (r', o') ∧ I r' (o ++ o') := by
  induction bufs generalizing r o with
  | nil => exact ⟨r, [], rfl, by simpa using h⟩
  | cons b bs ih =>
    obtain ⟨r1, o1, e1, h1⟩ := hcall r b o (by simp) h hr
    simp only [resumeLoop]
    rw [e1, Res.ok_bind]
    by_cases hs : r1.successUntil last = true
    · simp only [hs, if_true]
      exact ⟨r1, o1, rfl, h1⟩
    · have hs' := mt (success_iff r1 last).mpr hs
      obtain ⟨r2, o2, e2, h2⟩ := ih r1 (o ++ o1) (fun r b o hb => hcall r b o (by simp [hb])) h1 (by omega)
      simp only [hs, Bool.false_eq_true, if_false]
      rw [e2, Res.ok_bind]
      exact ⟨r2, o1 ++ o2, rfl, by rwa [← List.append_assoc]⟩

/-! ### C65 -/

/-- **C65 is false**: after an argument that does not fit, the following ones are sent nevertheless, and sent again by the
next call. -/
theorem C65_refuted : resumeLoop (catDumpResume [dInt 12345, .str (S "x")]) 1 [S "...", S "....."] {} =
    .ok (⟨5, some 1⟩, [S "x", S "12345", S "x"]) := by decide +kernel

/-- **C65 is false**: with an empty buffer string arguments are counted as sent. -/
theorem C65_refuted_empty : resumeLoop (catDumpResume [.str (S "x")]) 0 [[]] {} = .ok (⟨0, some 0⟩, []) := by decide +kernel

theorem drop_cons_of_lt {α : Type} (a : α) (l : List α) {n c : Nat} (h : c < n) : (a :: l).drop (n - c) = l.drop (n - (c + 1)) := by
  rw [show n - c = n - (c + 1) + 1 by omega, List.drop_succ_cons]

theorem catResumeFrom_spec (l : List DItem) (h : DItems l) (curr : Nat) (r : DumpResults) (buf : List Nat) (h0 : 0 < buf.length) :
    ∃ r', catResumeFrom curr r buf (l.map (·.1)) =
        .ok (r', ((l.drop (r.argfail - curr)).filter (fits buf.length)).map (·.2)) ∧
      r'.argfail = (if curr ≤ r.argfail then r.argfail + ((l.drop (r.argfail - curr)).takeWhile (fits buf.length)).length
        else r.argfail) ∧
      r'.bufsize = max r.bufsize (req (l.drop (r.argfail - curr))) := by
  induction l generalizing curr r buf with
  | nil => exact ⟨r, by simp [catResumeFrom], by simp, by simp [req]⟩
  | cons p l ih =>
    simp only [List.map_cons, catResumeFrom, catResume1]
    by_cases hw : r.writeArg curr = true
    · have hle := (writeArg_iff r curr).mp hw
      obtain ⟨b, e, hb⟩ := dump_shows h.cons.1 buf
      simp only [hw, if_true]
      rw [e, Res.ok_bind, Res.ok_bind]
      have hz : r.argfail - curr = 0 := by omega
      have hz1 : r.argfail - (curr + 1) = 0 := by omega
      have hz2 : r.argfail + 1 - (curr + 1) = 0 := by omega
      have hl1 : r.argfail - (r.argfail + 1) = 0 := by omega
      by_cases hf : fits buf.length p = true
      · have hn : need p ≤ buf.length := (fits_iff h0).mp hf
        by_cases hc : curr = r.argfail
        · simp only [hc, true_and, hn, if_true]
          obtain ⟨r', e', ha, hbs⟩ := ih h.cons.2 (r.argfail + 1) (({ r with lastok := some r.argfail } : DumpResults).grow (need p)) b
            (by omega)
          rw [grow_argfail, show ({ r with lastok := some r.argfail } : DumpResults).argfail = r.argfail + 1 from rfl] at e' ha hbs
          rw [e', Res.ok_bind]
          refine ⟨r', ?_, ?_, ?_⟩
          · simp [hf, hb]
          · rw [ha]
            simp [hf, hb]
            omega
          · rw [hbs, grow_bufsize]
            simp [req]
        · simp only [hc, false_and, if_false]
          obtain ⟨r', e', ha, hbs⟩ := ih h.cons.2 (curr + 1) (r.grow (need p)) b (by omega)
          rw [grow_argfail] at e' ha hbs
          rw [e', Res.ok_bind]
          refine ⟨r', ?_, ?_, ?_⟩
          · simp [hf, hb, hz, hz1]
          · rw [ha, if_neg (by omega), if_neg (by omega)]
          · rw [hbs, grow_bufsize]
            simp [req, hz, hz1]
      · have hn : ¬ need p ≤ buf.length := mt (fits_iff h0).mpr hf
        simp only [hn, and_false, if_false]
        obtain ⟨r', e', ha, hbs⟩ := ih h.cons.2 (curr + 1) (r.grow (need p)) b (by omega)
        rw [grow_argfail] at e' ha hbs
        rw [e', Res.ok_bind]
        refine ⟨r', ?_, ?_, ?_⟩
        · simp [hf, hb, hz, hz1]
        · rw [ha, if_neg (by omega)]
          split
          · rw [hz]; simp [hf]
          · rfl
        · rw [hbs, grow_bufsize]
          simp [req, hz, hz1]
    · have hlt := mt (writeArg_iff r curr).mpr hw
      simp only [hw, Bool.false_eq_true, if_false]
      rw [Res.ok_bind]
      obtain ⟨r', e', ha, hbs⟩ := ih h.cons.2 (curr + 1) r buf h0
      simp only []
      rw [e', Res.ok_bind]
      refine ⟨r', ?_, ?_, ?_⟩
      · rw [drop_cons_of_lt p l (by omega : curr < r.argfail)]; rfl
      · rw [ha, if_pos (by omega), if_pos (by omega), drop_cons_of_lt p l (by omega : curr < r.argfail)]
      · rw [hbs, drop_cons_of_lt p l (by omega : curr < r.argfail)]

/-- One call of `cat_dump_resume` with a non-empty buffer no smaller than the size reported so far: it sends all arguments not
yet counted as sent that fit, in order, and counts those before the first that does not. -/
theorem catDumpResume_spec (l : List DItem) (h : DItems l) (r : DumpResults) (buf : List Nat) (h0 : 0 < buf.length)
    (hb : r.bufsize ≤ buf.length) :
    ∃ r', catDumpResume (l.map (·.1)) r buf = .ok (r', ((l.drop r.argfail).filter (fits buf.length)).map (·.2)) ∧
      r'.argfail = r.argfail + ((l.drop r.argfail).takeWhile (fits buf.length)).length ∧
      r'.bufsize = max r.bufsize (req (l.drop r.argfail)) := by
  obtain ⟨r', e, ha, hbs⟩ := catResumeFrom_spec l h 0 r buf h0
  unfold catDumpResume
  rw [if_neg (by omega)]
  exact ⟨r', by simpa using e, by simpa using ha, by simpa using hbs⟩

theorem takeWhile_all {α : Type} {f : α → Bool} {l : List α} (h : ∀ p ∈ l, f p = true) : l.takeWhile f = l := by
  induction l with
  | nil => rfl
  | cons a l ih => rw [List.takeWhile_cons_of_pos (h a (by simp)), ih fun q hq => h q (by simp [hq])]

theorem takeWhile_sublist_filter {α : Type} (f : α → Bool) (l : List α) : (l.takeWhile f).Sublist (l.filter f) := by
  induction l with
  | nil => simp
  | cons a l ih =>
    by_cases h : f a = true
    · simp [h, ih]
    · simp [h]

theorem take_add_takeWhile {α : Type} (f : α → Bool) (l : List α) (n : Nat) :
    l.take (n + ((l.drop n).takeWhile f).length) = l.take n ++ (l.drop n).takeWhile f := by
  rw [List.take_add]
  congr 1
  conv_lhs => rw [← List.takeWhile_append_dropWhile (p := f) (l := l.drop n)]
  rw [List.takeWhile_append_dropWhile]
  have : (l.drop n).takeWhile f <+: l.drop n := List.takeWhile_prefix f
  exact (List.prefix_iff_eq_take.mp this).symm

/-- **C65**, what holds with a sufficient buffer: one call with a non-empty buffer in which every argument fits sends every
text once, in order, and reports success. -/
theorem C65_one_call_partial (l : List DItem) (h : DItems l) (hne : l ≠ []) (buf : List Nat) (h0 : 0 < buf.length)
    (hr : req l ≤ buf.length) :
    ∃ r, catDumpResume (l.map (·.1)) {} buf = .ok (r, l.map (·.2)) ∧ r.successUntil (l.length - 1) = true ∧ r.bufsize = req l := by
  obtain ⟨r, e, ha, hb⟩ := catDumpResume_spec l h {} buf h0 (Nat.zero_le _)
  have hall := fits_of_req h0 hr
  rw [show (DumpResults.argfail {}) = 0 from rfl] at e ha hb
  rw [List.drop_zero] at e ha hb
  rw [List.filter_eq_self.mpr hall] at e
  have htw : l.takeWhile (fits buf.length) = l := by
    exact takeWhile_all hall
  rw [htw] at ha
  refine ⟨r, e, ?_, by rw [hb]; simp⟩
  rw [success_iff, ha]
  have : 0 < l.length := List.length_pos_iff.mpr hne
  omega

/-- **C65**, what always holds with non-empty buffers: nothing is lost.  Once the loop reports success the sink has received every
argument, in order (but some possibly again in between: `C65_refuted`). -/
theorem C65_nothing_lost_partial (l : List DItem) (h : DItems l) (hne : l ≠ []) (bufs : List (List Nat))
    (hb : ∀ b ∈ bufs, 0 < b.length) :
    ∃ r o, resumeLoop (catDumpResume (l.map (·.1))) (l.length - 1) bufs {} = .ok (r, o) ∧
      (r.successUntil (l.length - 1) = true → (l.map (·.2)).Sublist o) := by
  have hpos : 0 < l.length := List.length_pos_iff.mpr hne
  obtain ⟨r, o, e, hi⟩ := resumeLoop_inv (catDumpResume (l.map (·.1))) (l.length - 1)
    (fun r o => ((l.take r.argfail).map (·.2)).Sublist o) bufs {} [] (by
      intro r b o hbm hi _
      by_cases hs : r.bufsize > b.length
      · exact ⟨r, [], by simp [catDumpResume, hs], by simpa using hi⟩
      · obtain ⟨r', e, ha, _⟩ := catDumpResume_spec l h r b (hb b hbm) (by omega)
        refine ⟨r', _, e, ?_⟩
        simp only [ha, take_add_takeWhile, List.map_append]
        exact hi.append ((takeWhile_sublist_filter _ _).map _)) (by simp [DumpResults.argfail]) (by simp [DumpResults.argfail])
  refine ⟨r, o, e, fun hs => ?_⟩
  rw [success_iff] at hs
  rwa [List.take_of_length_le (by omega), List.nil_append] at hi

/-- **C65**, when exact: if with every buffer tried no argument that fits comes after one that does not (for instance if only
the last argument ever fails, or if needs never decrease), every text is sent once, in order. -/
theorem C65_exact_partial (l : List DItem) (h : DItems l) (hne : l ≠ []) (bufs : List (List Nat)) (hb : ∀ b ∈ bufs, 0 < b.length)
    (hm : ∀ b ∈ bufs, l.Pairwise fun p q => need q ≤ b.length → need p ≤ b.length) :
    ∃ r o, resumeLoop (catDumpResume (l.map (·.1))) (l.length - 1) bufs {} = .ok (r, o) ∧ o = (l.take r.argfail).map (·.2) ∧
      (r.successUntil (l.length - 1) = true → o = l.map (·.2)) := by
  have hpos : 0 < l.length := List.length_pos_iff.mpr hne
  have key : ∀ (n : Nat) (l : List DItem), 0 < n → l.Pairwise (fun p q => need q ≤ n → need p ≤ n) →
      l.filter (fits n) = l.takeWhile (fits n) := by
    intro n l hn hp
    induction l with
    | nil => rfl
    | cons a l ih =>
      rw [List.pairwise_cons] at hp
      by_cases hf : fits n a = true
      · simp [hf, ih hp.2]
      · rw [List.filter_cons_of_neg hf, List.takeWhile_cons_of_neg hf, List.filter_eq_nil_iff]
        intro q hq hfq
        exact hf ((fits_iff hn).mpr (hp.1 q hq ((fits_iff hn).mp hfq)))
  obtain ⟨r, o, e, hi⟩ := resumeLoop_inv (catDumpResume (l.map (·.1))) (l.length - 1)
    (fun r o => o = (l.take r.argfail).map (·.2)) bufs {} [] (by
      intro r b o hbm hi _
      by_cases hs : r.bufsize > b.length
      · exact ⟨r, [], by simp [catDumpResume, hs], by simpa using hi⟩
      · obtain ⟨r', e, ha, _⟩ := catDumpResume_spec l h r b (hb b hbm) (by omega)
        refine ⟨r', _, e, ?_⟩
        simp only [ha, take_add_takeWhile, List.map_append]
        rw [hi, key _ _ (hb b hbm) ((hm b hbm).sublist (List.drop_sublist _ _))]) (by simp [DumpResults.argfail])
      (by simp [DumpResults.argfail])
  refine ⟨r, o, e, by simpa using hi, fun hs => ?_⟩
  rw [success_iff] at hs
  rwa [List.take_of_length_le (by omega), List.nil_append] at hi

/-- **C65**: two calls are enough: if the second buffer is not empty and has the size reported by the first call, the second call
reports success. -/
theorem C65_two_calls_partial (l : List DItem) (h : DItems l) (hne : l ≠ []) (b1 b2 : List Nat) (h1 : 0 < b1.length)
    (h2 : 0 < b2.length) :
    ∃ r o, catDumpResume (l.map (·.1)) {} b1 = .ok (r, o) ∧
      (r.bufsize ≤ b2.length → ∃ r' o', catDumpResume (l.map (·.1)) r b2 = .ok (r', o') ∧ r'.successUntil (l.length - 1) = true) := by
  have hpos : 0 < l.length := List.length_pos_iff.mpr hne
  obtain ⟨r, e, ha, hb⟩ := catDumpResume_spec l h {} b1 h1 (Nat.zero_le _)
  refine ⟨r, _, e, fun hle => ?_⟩
  obtain ⟨r', e', ha', _⟩ := catDumpResume_spec l h r b2 h2 hle
  refine ⟨r', _, e', ?_⟩
  rw [success_iff, ha']
  rw [show (DumpResults.argfail {}) = 0 from rfl, List.drop_zero] at hb
  have hall : ∀ p ∈ l.drop r.argfail, fits b2.length p = true := fun p hp =>
    fits_of_req h2 (by simp at hb; omega) p (List.mem_of_mem_drop hp)
  rw [takeWhile_all hall]
  simp
  omega

example : resumeLoop (catDumpResume [.str (S "x"), dInt 12, dInt 12345]) 2 [S "...", S "....."] {} =
    .ok (⟨5, some 2⟩, [S "x", S "12", S "12345"]) := by decide +kernel

/-! ### C66: catsep_dump_resume -/

/-- **C66 is false** for `catsep_dump_resume`: an argument that does not fit is lost if a string (here the separator) follows. -/
theorem C66_refuted_catsep : resumeLoop (catsepDumpResume (.str (S ", ")) [dInt 12345, dInt 6]) 2 [S "...", S "....."] {} =
    .ok (⟨5, some 2⟩, [S "6"]) := by decide +kernel

/-- **C66 is false** for `format_dump_resume`: an argument that does not fit is lost if a string argument follows. -/
theorem C66_refuted_format : resumeLoop (formatDumpResume (S "{} {}!") [dInt 12345, .str (S "x")]) 4 [S "...", S "....."] {} =
    .ok (⟨5, some 4⟩, [S "", S "!"]) := by decide +kernel

/-- **C66 is false** for `format_dump_resume`: if there are more arguments than marks, success is not reported and the next call
takes the format string beyond its end. -/
theorem C66_refuted_surplus : formatDumpResume (S "{}") [dInt 1, dInt 2] {} (S "...") = .ok (⟨1, some 2⟩, [S "", S "1", S ""]) ∧
    formatDumpResume (S "{}") [dInt 1, dInt 2] ⟨1, some 2⟩ (S "...") = .ub := by decide +kernel

/-- The arguments one after the other. -/
def seqResume : Nat → DumpResults → List Nat → List DArg → Res (DumpResults × Chunks)
  | _, r, _, [] => .ok (r, [])
  | curr, r, buf, a :: more => do
    let (r, b, o) ← catsepResume1 curr r buf a
    let (r, om) ← seqResume (curr + 1) r b more
    .ok (r, o ++ om)

theorem catsepResumeFrom_eq (sep : DArg) (l : List DArg) (curr : Nat) (r : DumpResults) (buf : List Nat) :
    catsepResumeFrom sep curr r buf l = seqResume curr r buf (inter sep l) := by
  induction l generalizing curr r buf with
  | nil => rfl
  | cons a l ih =>
    cases l with
    | nil =>
      simp only [catsepResumeFrom, inter, seqResume]
      cases catsepResume1 curr r buf a with
      | ok x => simp only [Res.ok_bind, List.append_nil]
      | _ => rfl
    | cons b l =>
      simp only [catsepResumeFrom, inter, seqResume]
      cases catsepResume1 curr r buf a with
      | ok x =>
        simp only [Res.ok_bind]
        cases catsepResume1 (curr + 1) x.1 x.2.1 sep with
        | ok y =>
          simp only [Res.ok_bind]
          rw [ih]
          cases seqResume (curr + 2) y.1 y.2.1 (inter sep (b :: l)) with
          | ok z => simp only [Res.ok_bind]
          | _ => rfl
        | _ => rfl
      | _ => rfl

/-- A value (not a string) whose text is not empty. -/
def Solid (p : DItem) : Prop := (∃ f, p.1 = .val f) ∧ p.2 ≠ []

theorem Solid.fits_iff {p : DItem} (h : Solid p) (n : Nat) : fits n p = true ↔ need p ≤ n := by
  obtain ⟨⟨f, hf⟩, _⟩ := h
  simp [fits, need, hf]

theorem Solid.need_pos {p : DItem} (h : Solid p) : 0 < need p := by
  obtain ⟨⟨f, hf⟩, hne⟩ := h
  simp only [need, hf]
  exact List.length_pos_iff.mpr hne

theorem fits_need {n : Nat} {p : DItem} (h : fits n p = true) : need p ≤ n := by
  obtain ⟨a, t⟩ := p
  cases a <;> simp [fits, need] at h ⊢
  exact h

/-- One argument: skipped, or sent and counted, or nothing sent and the buffer given up. -/
theorem catsepResume1_spec {p : DItem} (h : p.1.Shows p.2) (curr : Nat) (r : DumpResults) (buf : List Nat)
    (hsf : Solid p ∨ fits buf.length p = true) :
    (curr < r.argfail → catsepResume1 curr r buf p.1 = .ok (r, buf, [])) ∧
    (r.argfail ≤ curr → fits buf.length p = true → ∃ r' b, catsepResume1 curr r buf p.1 = .ok (r', b, [p.2]) ∧ b.length = buf.length ∧
      r'.argfail = curr + 1) ∧
    (r.argfail ≤ curr → ¬ fits buf.length p = true → ∃ r', catsepResume1 curr r buf p.1 = .ok (r', [], []) ∧
      r'.argfail = r.argfail) := by
  refine ⟨fun hc => ?_, fun hc hf => ?_, fun hc hf => ?_⟩
  · have : ¬ r.writeArg curr = true := by rw [writeArg_iff]; omega
    simp [catsepResume1, this]
  · obtain ⟨b, e, hb⟩ := dump_shows h buf
    have hw := (writeArg_iff r curr).mpr hc
    simp only [catsepResume1, hw, if_true]
    rw [e, Res.ok_bind]
    simp only [fits_need hf, if_true, hf]
    exact ⟨_, b, rfl, hb, rfl⟩
  · obtain ⟨b, e, hb⟩ := dump_shows h buf
    have hw := (writeArg_iff r curr).mpr hc
    have hs : Solid p := hsf.resolve_right hf
    have hn : ¬ need p ≤ buf.length := mt (hs.fits_iff _).mpr hf
    simp only [catsepResume1, hw, if_true]
    rw [e, Res.ok_bind]
    simp only [hn, hf, if_false, Bool.false_eq_true]
    exact ⟨_, rfl, rfl⟩

theorem seqResume_dead (l : List DItem) (h : DItems l) (hs : ∀ p ∈ l, Solid p) (curr : Nat) (r : DumpResults)
    (hc : r.argfail ≤ curr) : ∃ r', seqResume curr r [] (l.map (·.1)) = .ok (r', []) ∧ r'.argfail = r.argfail := by
  induction l generalizing curr r with
  | nil => exact ⟨r, rfl, rfl⟩
  | cons p l ih =>
    have hp := hs p (by simp)
    have hf : ¬ fits ([] : List Nat).length p = true := by
      rw [hp.fits_iff]; have := hp.need_pos; simp; omega
    obtain ⟨r1, e1, h1⟩ := (catsepResume1_spec h.cons.1 curr r [] (.inl hp)).2.2 hc hf
    obtain ⟨r2, e2, h2⟩ := ih h.cons.2 (fun q hq => hs q (by simp [hq])) (curr + 1) r1 (by omega)
    simp only [List.map_cons, seqResume]
    rw [e1, Res.ok_bind]
    simp only []
    rw [e2, Res.ok_bind]
    exact ⟨r2, rfl, by omega⟩

theorem seqResume_spec (l : List DItem) (h : DItems l) (curr : Nat) (r : DumpResults) (buf : List Nat)
    (hsf : (∀ p ∈ l, Solid p) ∨ ∀ p ∈ l, fits buf.length p = true) (hc : curr ≤ r.argfail) :
    ∃ r', seqResume curr r buf (l.map (·.1)) =
        .ok (r', ((l.drop (r.argfail - curr)).takeWhile (fits buf.length)).map (·.2)) ∧
      r'.argfail = r.argfail + ((l.drop (r.argfail - curr)).takeWhile (fits buf.length)).length := by
  induction l generalizing curr r buf with
  | nil => exact ⟨r, by simp [seqResume], by simp⟩
  | cons p l ih =>
    have hsfp : Solid p ∨ fits buf.length p = true := hsf.imp (fun g => g p (by simp)) (fun g => g p (by simp))
    have hsfl : (∀ p ∈ l, Solid p) ∨ ∀ p ∈ l, fits buf.length p = true :=
      hsf.imp (fun g q hq => g q (by simp [hq])) (fun g q hq => g q (by simp [hq]))
    obtain ⟨s1, s2, s3⟩ := catsepResume1_spec h.cons.1 curr r buf hsfp
    simp only [List.map_cons, seqResume]
    by_cases hlt : curr < r.argfail
    · obtain ⟨r', e', ha⟩ := ih h.cons.2 (curr + 1) r buf hsfl (by omega)
      rw [s1 hlt, Res.ok_bind]
      simp only []
      rw [e', Res.ok_bind]
      exact ⟨r', by rw [drop_cons_of_lt p l hlt]; rfl, by rw [drop_cons_of_lt p l hlt]; exact ha⟩
    · have hz : r.argfail - curr = 0 := by omega
      by_cases hf : fits buf.length p = true
      · obtain ⟨r1, b, e1, hb, h1⟩ := s2 (by omega) hf
        obtain ⟨r', e', ha⟩ := ih h.cons.2 (curr + 1) r1 b (by rwa [hb]) (by omega)
        rw [e1, Res.ok_bind]
        simp only []
        rw [e', Res.ok_bind]
        have hz1 : r1.argfail - (curr + 1) = 0 := by omega
        refine ⟨r', ?_, ?_⟩
        · simp [hz, hz1, hf, hb]
        · rw [ha]; simp [hz, hz1, hf, hb]; omega
      · obtain ⟨r1, e1, h1⟩ := s3 (by omega) hf
        have hs : ∀ p ∈ l, Solid p := by
          rcases hsf with g | g
          · exact fun q hq => g q (by simp [hq])
          · exact absurd (g p (by simp)) hf
        obtain ⟨r', e', ha⟩ := seqResume_dead l h.cons.2 hs (curr + 1) r1 (by omega)
        rw [e1, Res.ok_bind]
        simp only []
        rw [e', Res.ok_bind]
        exact ⟨r', by simp [hz, hf], by rw [ha, h1]; simp [hz, hf]⟩

/-- **C66** for `catsep_dump_resume`, with a sufficient buffer: one call with a non-empty buffer in which every argument and the
separator fit sends the separated text and reports success. -/
theorem C66_catsep_one_call_partial (sep : DItem) (hs : sep.1.Shows sep.2) (l : List DItem) (h : DItems l) (hne : l ≠ [])
    (buf : List Nat) (h0 : 0 < buf.length) (hr : req (inter sep l) ≤ buf.length) :
    ∃ r o, catsepDumpResume sep.1 (l.map (·.1)) {} buf = .ok (r, o) ∧ o.flatten = separated sep.2 (l.map (·.2)) ∧
      r.successUntil ((inter sep l).length - 1) = true := by
  have hall := fits_of_req h0 hr
  obtain ⟨r, e, ha⟩ := seqResume_spec (inter sep l) (inter_items hs h) 0 {} buf (.inr hall) (Nat.zero_le _)
  rw [show (DumpResults.argfail {}) = 0 from rfl] at e ha
  have htw : (inter sep l).takeWhile (fits buf.length) = inter sep l := takeWhile_all hall
  simp only [Nat.sub_zero, List.drop_zero, htw] at e ha
  refine ⟨r, _, by rw [catsepDumpResume, catsepResumeFrom_eq, ← inter_map (fun p : DItem => p.1)]; exact e, ?_, ?_⟩
  · rw [inter_map, inter_flatten]
  · rw [success_iff, ha]
    have : 0 < (inter sep l).length := by
      cases l with
      | nil => exact absurd rfl hne
      | cons a l => cases l <;> simp [inter]
    omega

theorem inter_solid {sep : DItem} {l : List DItem} (hs : Solid sep) (h : ∀ p ∈ l, Solid p) : ∀ p ∈ inter sep l, Solid p := by
  induction l with
  | nil => exact h
  | cons a l ih =>
    cases l with
    | nil => exact h
    | cons b l =>
      intro p hp
      simp only [inter, List.mem_cons] at hp
      rcases hp with rfl | rfl | hp
      · exact h _ (by simp)
      · exact hs
      · exact ih (fun q hq => h q (by simp [hq])) p hp

/-- **C66** for `catsep_dump_resume`, when exact: if arguments and separator are values (no strings) with non-empty texts, then for any
history of buffers the sink has received exactly the arguments counted as sent, once each and in order; so on
success it has received the separated text. -/
theorem C66_catsep_exact_partial (sep : DItem) (hs : sep.1.Shows sep.2) (l : List DItem) (h : DItems l) (hne : l ≠ [])
    (hsep : Solid sep) (hsol : ∀ p ∈ l, Solid p) (bufs : List (List Nat)) :
    ∃ r o, resumeLoop (catsepDumpResume sep.1 (l.map (·.1))) ((inter sep l).length - 1) bufs {} = .ok (r, o) ∧
      o = ((inter sep l).take r.argfail).map (·.2) ∧
      (r.successUntil ((inter sep l).length - 1) = true → o.flatten = separated sep.2 (l.map (·.2))) := by
  have hpos : 0 < (inter sep l).length := by
    cases l with
    | nil => exact absurd rfl hne
    | cons a l => cases l <;> simp [inter]
  obtain ⟨r, o, e, hi⟩ := resumeLoop_inv (catsepDumpResume sep.1 (l.map (·.1))) ((inter sep l).length - 1)
    (fun r o => o = ((inter sep l).take r.argfail).map (·.2)) bufs {} [] (by
      intro r b o _ hi _
      obtain ⟨r', e, ha⟩ := seqResume_spec (inter sep l) (inter_items hs h) 0 r b (.inl (inter_solid hsep hsol)) (Nat.zero_le _)
      rw [inter_map] at e
      refine ⟨r', _, by rw [catsepDumpResume, catsepResumeFrom_eq]; exact e, ?_⟩
      rw [Nat.sub_zero] at ha
      simp only [ha, take_add_takeWhile, List.map_append, Nat.sub_zero]
      rw [hi]) (by simp [DumpResults.argfail]) (by simp [DumpResults.argfail])
  rw [List.nil_append] at hi
  refine ⟨r, o, e, hi, fun hsu => ?_⟩
  rw [success_iff] at hsu
  rw [hi, List.take_of_length_le (by omega), inter_map, inter_flatten]

example : resumeLoop (catsepDumpResume (.val (Arg.toChars (.chr 44))) [dInt 12345, dInt 6]) 2 [S "", S "...", S "....."] {} =
    .ok (⟨5, some 2⟩, [S "12345", S ",", S "6"]) := by decide +kernel
example : Solid (dInt 12345, S "12345") ∧ Solid (.val (Arg.toChars (.chr 44)), [44]) := ⟨⟨⟨_, rfl⟩, by decide⟩, ⟨⟨_, rfl⟩, by decide⟩⟩

/-! ### C66: format_dump_resume -/

/-- The pieces sent: text before a mark, argument, and so on, and the text after the last mark. -/
inductive FPieces : List Nat → List DItem → List DItem → Prop
  | noargs {fmt} : FPieces fmt [] [(.str fmt, fmt)]
  | step {pre post p l ps} : (∀ i, i < pre.length → ¬ OccursAt (pre ++ mark ++ post) mark i) → FPieces post l ps →
      FPieces (pre ++ mark ++ post) (p :: l) ((.str pre, pre) :: p :: ps)

theorem Filled.pieces {fmt out : List Nat} {ts : List (List Nat)} (h : Filled fmt ts out) :
    ∀ l : List DItem, l.map (·.2) = ts → ∃ ps, FPieces fmt l ps ∧ joined ps = out ∧ ps.length = 2 * l.length + 1 ∧
      ∀ p ∈ ps, p ∈ l ∨ ∃ t, p = (.str t, t) := by
  induction h with
  | @noargs fmt =>
    intro l hl
    have : l = [] := by simpa using hl
    subst this
    exact ⟨_, .noargs, by simp [joined], rfl, fun p hp => .inr ⟨fmt, by simpa using hp⟩⟩
  | @step pre post a args out hpre hs ih =>
    intro l hl
    cases l with
    | nil => cases hl
    | cons p l =>
      obtain ⟨hp, hl⟩ := List.cons.inj hl
      obtain ⟨ps, h1, h2, h3, h4⟩ := ih l hl
      refine ⟨_, .step hpre h1, ?_, by simp [h3]; omega, ?_⟩
      · have hp : p.2 = a := hp
        simp only [joined] at h2 ⊢
        simp [h2, hp]
      · intro q hq
        simp only [List.mem_cons] at hq
        rcases hq with rfl | rfl | hq
        · exact .inr ⟨_, rfl⟩
        · exact .inl (by simp)
        · exact (h4 q hq).imp (fun g => by simp [g]) id

theorem formatResumeArg_eq : formatResumeArg = catsepResume1 := rfl

theorem dumpText_dead (curr : Nat) (r : DumpResults) (t : List Nat) : dumpText curr r [] t = (r, []) := rfl

theorem dumpText_alive (curr : Nat) (r : DumpResults) (buf t : List Nat) (h : 0 < buf.length) :
    dumpText curr r buf t = ({ r with lastok := some curr }, [t]) := by
  simp [dumpText, h]

theorem formatResume_dead {fmt : List Nat} {l ps : List DItem} (hp : FPieces fmt l ps) :
    ∀ (curr : Nat) (r : DumpResults), DItems l → (∀ p ∈ l, Solid p) → r.argfail ≤ curr + 2 * l.length →
    ∃ r', formatResumeFrom curr r [] fmt (l.map (·.1)) = .ok (r', []) ∧ r'.argfail = r.argfail := by
  induction hp with
  | noargs => intro curr r _ _ _; exact ⟨r, rfl, rfl⟩
  | @step pre post p l ps hpre hps ih =>
    intro curr r h hs hc
    simp only [List.map_cons, formatResumeFrom]
    rw [findS_mark hpre, Res.ok_bind]
    simp only [dumpText_dead, ite_self, formatResumeArg_eq, drop_mark]
    have hps := hs p (by simp)
    have hf : ¬ fits ([] : List Nat).length p = true := by
      rw [hps.fits_iff]; have := hps.need_pos; simp; omega
    obtain ⟨s1, s2, s3⟩ := catsepResume1_spec h.cons.1 (curr + 1) r [] (.inl hps)
    simp only [List.length_cons] at hc
    by_cases hlt : curr + 1 < r.argfail
    · obtain ⟨r', e', ha⟩ := ih (curr + 2) r h.cons.2 (fun q hq => hs q (by simp [hq])) (by omega)
      rw [s1 hlt, Res.ok_bind]
      simp only []
      rw [e', Res.ok_bind]
      exact ⟨r', rfl, ha⟩
    · obtain ⟨r1, e1, h1⟩ := s3 (by omega) hf
      obtain ⟨r', e', ha⟩ := ih (curr + 2) r1 h.cons.2 (fun q hq => hs q (by simp [hq])) (by omega)
      rw [e1, Res.ok_bind]
      simp only []
      rw [e', Res.ok_bind]
      exact ⟨r', rfl, by omega⟩

theorem formatResume_alive {fmt : List Nat} {l ps : List DItem} (hp : FPieces fmt l ps) :
    ∀ (curr : Nat) (r : DumpResults) (buf : List Nat), DItems l → 0 < buf.length →
    ((∀ p ∈ l, Solid p) ∨ ∀ p ∈ l, fits buf.length p = true) → curr ≤ r.argfail → r.argfail ≤ curr + 2 * l.length →
    ∃ r', formatResumeFrom curr r buf fmt (l.map (·.1)) =
        .ok (r', ((ps.drop (r.argfail - curr)).takeWhile (fits buf.length)).map (·.2)) ∧
      r'.argfail = r.argfail + ((ps.drop (r.argfail - curr)).takeWhile (fits buf.length)).length := by
  induction hp with
  | @noargs fmt =>
    intro curr r buf _ h0 _ hc1 hc2
    have : r.argfail = curr := by simp at hc2; omega
    have hf : fits buf.length (DArg.str fmt, fmt) = true := by simp [fits, h0]
    simp only [List.map_nil, formatResumeFrom, dumpText_alive _ _ _ _ h0]
    refine ⟨_, by simp [this, hf]; rfl, ?_⟩
    simp [this, hf]
    rfl
  | @step pre post p l ps hpre hps ih =>
    intro curr r buf h h0 hsf hc1 hc2
    simp only [List.map_cons, formatResumeFrom]
    rw [findS_mark hpre, Res.ok_bind]
    simp only [formatResumeArg_eq, drop_mark, take_mark, dumpText_alive _ _ _ _ h0]
    have hsfp : Solid p ∨ fits buf.length p = true := hsf.imp (fun g => g p (by simp)) (fun g => g p (by simp))
    have hsfl : (∀ p ∈ l, Solid p) ∨ ∀ p ∈ l, fits buf.length p = true :=
      hsf.imp (fun g q hq => g q (by simp [hq])) (fun g q hq => g q (by simp [hq]))
    have hfpre : fits buf.length (DArg.str pre, pre) = true := by simp [fits, h0]
    simp only [List.length_cons] at hc2
    -- the argument and the rest, for results counting at least `curr + 1`
    have main : ∀ (pr : Chunks) (r1 : DumpResults), curr + 1 ≤ r1.argfail → r1.argfail ≤ curr + 2 * (l.length + 1) →
        ∃ r' o, (do
          let (r, b, oa) ← catsepResume1 (curr + 1) r1 buf p.1
          let (r, om) ← formatResumeFrom (curr + 2) r b post (l.map fun q : DItem => q.1)
          (Res.ok (r, pr ++ (oa ++ om)) : Res (DumpResults × Chunks))) = .ok (r', pr ++ o) ∧
        o = (((p :: ps).drop (r1.argfail - (curr + 1))).takeWhile (fits buf.length)).map (·.2) ∧
        r'.argfail = r1.argfail + (((p :: ps).drop (r1.argfail - (curr + 1))).takeWhile (fits buf.length)).length := by
      intro pr r1 g1 g2
      obtain ⟨s1, s2, s3⟩ := catsepResume1_spec h.cons.1 (curr + 1) r1 buf hsfp
      by_cases hlt : curr + 1 < r1.argfail
      · obtain ⟨r', e', ha⟩ := ih (curr + 2) r1 buf h.cons.2 h0 hsfl (by omega) (by omega)
        rw [s1 hlt, Res.ok_bind]
        simp only []
        rw [e', Res.ok_bind]
        exact ⟨r', _, rfl, by rw [drop_cons_of_lt p ps hlt]; rfl, by rw [drop_cons_of_lt p ps hlt]; exact ha⟩
      · have hz : r1.argfail - (curr + 1) = 0 := by omega
        by_cases hf : fits buf.length p = true
        · obtain ⟨r2, b, e1, hb, h1⟩ := s2 (by omega) hf
          obtain ⟨r', e', ha⟩ := ih (curr + 2) r2 b h.cons.2 (by omega) (by rwa [hb]) (by omega) (by omega)
          rw [e1, Res.ok_bind]
          simp only []
          rw [e', Res.ok_bind]
          have hz1 : r2.argfail - (curr + 2) = 0 := by omega
          refine ⟨r', _, rfl, ?_, ?_⟩
          · simp [hz, hz1, hf, hb]
          · rw [ha]; simp [hz, hz1, hf, hb]; omega
        · obtain ⟨r2, e1, h1⟩ := s3 (by omega) hf
          have hs : ∀ p ∈ l, Solid p := by
            rcases hsf with g | g
            · exact fun q hq => g q (by simp [hq])
            · exact absurd (g p (by simp)) hf
          obtain ⟨r', e', ha⟩ := formatResume_dead hps (curr + 2) r2 h.cons.2 hs (by omega)
          rw [e1, Res.ok_bind]
          simp only []
          rw [e', Res.ok_bind]
          exact ⟨r', _, rfl, by simp [hz, hf], by rw [ha, h1]; simp [hz, hf]⟩
    by_cases hw : r.writeArg curr = true
    · have hle := (writeArg_iff r curr).mp hw
      have hz : r.argfail - curr = 0 := by omega
      obtain ⟨r', o, e, ho, ha⟩ := main [pre] { r with lastok := some curr } (Nat.le_refl _) (by show curr + 1 ≤ _; omega)
      simp only [hw, if_true]
      rw [show (({ r with lastok := some curr } : DumpResults)).argfail = curr + 1 from rfl] at ho ha
      refine ⟨r', ?_, ?_⟩
      · rw [e, ho]
        simp [hz, hfpre]
      · rw [ha]; simp [hz, hfpre]; omega
    · have hlt := mt (writeArg_iff r curr).mpr hw
      obtain ⟨r', o, e, ho, ha⟩ := main [] r (by omega) (by omega)
      simp only [hw, Bool.false_eq_true, if_false]
      refine ⟨r', ?_, ?_⟩
      · rw [drop_cons_of_lt _ (p :: ps) (by omega : curr < r.argfail), ← ho]
        exact e
      · rw [drop_cons_of_lt _ (p :: ps) (by omega : curr < r.argfail)]; exact ha

/-- **C66** for `format_dump_resume`, with a sufficient buffer: if every argument has its mark, one call with a non-empty
buffer in which every argument fits sends the formatted text and reports success. -/
theorem C66_format_one_call_partial (fmt out : List Nat) (l : List DItem) (h : DItems l) (hfill : Filled fmt (l.map (·.2)) out)
    (buf : List Nat) (h0 : 0 < buf.length) (hr : req l ≤ buf.length) :
    ∃ r o, formatDumpResume fmt (l.map (·.1)) {} buf = .ok (r, o) ∧ o.flatten = out ∧ r.successUntil (2 * l.length) = true := by
  obtain ⟨ps, hps, hj, hlen, hmem⟩ := Filled.pieces hfill l rfl
  have hall := fits_of_req h0 hr
  obtain ⟨r, e, ha⟩ := formatResume_alive hps 0 {} buf h h0 (.inr hall) (Nat.zero_le _) (by simp [DumpResults.argfail])
  rw [show (DumpResults.argfail {}) = 0 from rfl] at e ha
  have hps' : ∀ p ∈ ps, fits buf.length p = true := by
    intro p hp
    rcases hmem p hp with g | ⟨t, rfl⟩
    · exact hall p g
    · simp [fits, h0]
  simp only [Nat.sub_zero, List.drop_zero, takeWhile_all hps'] at e ha
  exact ⟨r, _, e, hj, by rw [success_iff, ha]; omega⟩

/-- **C66** for `format_dump_resume`, when exact: if every argument has its mark and the arguments are values (no strings) with
non-empty texts, then for any history of buffers the sink has on success received exactly the formatted text. -/
theorem C66_format_exact_partial (fmt out : List Nat) (l : List DItem) (h : DItems l) (hfill : Filled fmt (l.map (·.2)) out)
    (hsol : ∀ p ∈ l, Solid p) (bufs : List (List Nat)) :
    ∃ r o, resumeLoop (formatDumpResume fmt (l.map (·.1))) (2 * l.length) bufs {} = .ok (r, o) ∧ o.flatten <+: out ∧
      (r.successUntil (2 * l.length) = true → o.flatten = out) := by
  obtain ⟨ps, hps, hj, hlen, hmem⟩ := Filled.pieces hfill l rfl
  obtain ⟨r, o, e, hi⟩ := resumeLoop_inv (formatDumpResume fmt (l.map (·.1))) (2 * l.length)
    (fun r o => o = (ps.take r.argfail).map (·.2)) bufs {} [] (by
      intro r b o _ hi hle
      by_cases h0 : 0 < b.length
      · obtain ⟨r', e, ha⟩ := formatResume_alive hps 0 r b h h0 (.inl hsol) (Nat.zero_le _) (by omega)
        refine ⟨r', _, e, ?_⟩
        rw [Nat.sub_zero] at ha
        simp only [ha, take_add_takeWhile, List.map_append, Nat.sub_zero]
        rw [hi]
      · have hb : b = [] := List.length_eq_zero_iff.mp (by omega)
        subst hb
        obtain ⟨r', e, ha⟩ := formatResume_dead hps 0 r h hsol (by omega)
        exact ⟨r', [], e, by rw [ha]; simpa using hi⟩) (by simp [DumpResults.argfail]) (by simp [DumpResults.argfail])
  rw [List.nil_append] at hi
  refine ⟨r, o, e, ?_, fun hsu => ?_⟩
  · rw [hi, ← hj]
    refine ⟨joined (ps.drop r.argfail), ?_⟩
    rw [joined, joined, ← List.flatten_append, ← List.map_append, List.take_append_drop]
  · rw [success_iff] at hsu
    rw [hi, List.take_of_length_le (by omega)]
    exact hj

example : resumeLoop (formatDumpResume (S "a{}b{}c") [dInt 12345, dInt 6]) 4 [S "", S "...", S "....."] {} =
    .ok (⟨5, some 4⟩, [S "a", S "12345", S "b", S "6", S "c"]) := by decide +kernel
example : Filled (S "a{}b") [S "7"] (S "a7b") :=
  .step (pre := S "a") (post := S "b") (a := S "7") (out := S "b")
    (by intro i hi; rw [occursAt_iff]; have : i = 0 := by simpa [S] using hi
        subst this; decide +kernel) .noargs

end C4
