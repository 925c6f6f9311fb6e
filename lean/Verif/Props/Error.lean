import Verif.Error
import Verif.Spec.Error
import Mathlib.Data.Nat.Bitwise
/-
Properties C125-C127: reporting errors, settings for a scope, looking for a debugger.
-/
namespace C4
open Spec Err

theorem has_bit (s : Settings) (k : Nat) : has s (2 ^ k) = s.flags.testBit k := by
  unfold has
  rw [Nat.and_two_pow]
  have := Nat.two_pow_pos k
  cases s.flags.testBit k <;> simp

theorem has_log (s : Settings) : has s ON_ERROR_LOG = s.flags.testBit 1 := has_bit s 1
theorem has_callback (s : Settings) : has s ON_ERROR_CALLBACK = s.flags.testBit 2 := has_bit s 2
theorem has_abort (s : Settings) : has s ON_ERROR_ABORT = s.flags.testBit 3 := has_bit s 3
theorem has_throw (s : Settings) : has s ON_ERROR_THROW = s.flags.testBit 4 := has_bit s 4
theorem has_either (s : Settings) : has s (ON_ERROR_LOG ||| ON_ERROR_CALLBACK) = (s.flags.testBit 1 || s.flags.testBit 2) := by
  rw [← has_log, ← has_callback]
  unfold has
  rw [Nat.and_or_distrib_left]
  have : ∀ a b : Nat, (a ||| b ≠ 0) ↔ (a ≠ 0 ∨ b ≠ 0) := by
    intro a b
    rw [Ne, Nat.or_eq_zero_iff]
    tauto
  simp only [this]
  rw [Bool.decide_or]

/-- The buffer after `vsnprintf`. -/
def msgBuf (t : List Nat) : List (Option Nat) := (keptMessage t).map some ++ some 0 :: List.replicate (1023 - (keptMessage t).length) none

theorem cstring_msg (m : List Nat) (r : List (Option Nat)) : cstring (m.map some ++ some 0 :: r) = .ok (m.takeWhile (· ≠ 0)) := by
  induction m with
  | nil => simp [cstring]
  | cons c m ih =>
    by_cases hc : c = 0
    · subst hc
      simp [cstring]
    · simp only [List.map_cons, List.cons_append, cstring, if_neg hc, ih, Res.ok_bind]
      rw [List.takeWhile_cons_of_pos (by simpa using hc)]

theorem chars_msg (m : List Nat) (r : List (Option Nat)) : chars m.length (m.map some ++ r) = .ok m := by
  induction m with
  | nil => rfl
  | cons c m ih => simp [chars, ih]

theorem msglen_eq (t : List Nat) : (if (0 : Int) ≤ t.length ∧ (t.length : Int) < 1024 then (t.length : Int).toNat else 1023) = (keptMessage t).length := by
  unfold keptMessage
  rw [List.length_take]
  split <;> omega

/-- What `handle_error` does, with the message formatted. -/
theorem handleError_eq (throws : Bool) (cbs : Nat → Callback) (loc : Where) (t : List Nat) (s : Settings) (h : s.flags.testBit 1 = true ∨ s.flags.testBit 2 = true) :
    handleError throws cbs loc (some t) s =
      let log := if s.flags.testBit 1 then [Event.log (logText (S "ERROR") [] loc (stringMessage t))] else []
      let called := s.flags.testBit 2 && s.callback.isSome
      let cb := s.callback.getD 0
      let call := if called then [Event.call cb (keptMessage t) true (keptMessage t).length] else []
      let r := if called then cbs cb (keptMessage t) s else (s, false)
      .ok (log ++ call, r.1, if r.2 then .callbackThrew else if r.1.flags.testBit 4 && throws then .threw (stringMessage t) else .aborted) := by
  have hb : vsnprintf (some t) = ((t.length : Int), msgBuf t) := rfl
  have hs : cstring (msgBuf t) = .ok (stringMessage t) := cstring_msg _ _
  have hc : chars (keptMessage t).length (msgBuf t) = .ok (keptMessage t) := chars_msg _ _
  have hz : (msgBuf t)[(keptMessage t).length]? = some (some 0) := by
    unfold msgBuf
    rw [List.getElem?_append_right (by simp)]
    simp
  have he : (s.flags.testBit 1 || s.flags.testBit 2) = true := by simpa using h
  unfold handleError
  rw [has_either, he, if_pos rfl, hb]
  simp only [has_log, has_callback, has_throw, has_abort]
  simp only [msglen_eq, hs, hc, hz]
  rcases s with ⟨fl, cb⟩
  cases h1 : fl.testBit 1 <;> cases h2 : fl.testBit 2 <;> cases cb <;> simp [*]
  all_goals
    split
    · rfl
    · first
        | rfl
        | (split <;> rfl)

theorem logText_shows (kind sep msg : List Nat) (loc : Where) : Shows kind msg loc.place (logText kind sep loc msg) := by
  cases loc with
  | nothing => exact List.prefix_refl _
  | fileLine f l =>
    show _ <+: _
    unfold logText
    simp only [Where.place, List.append_assoc]
    exact List.prefix_refl _
  | fileLineFunc f g l =>
    show _ <+: _
    unfold logText
    refine ⟨f ++ [58] ++ numeralText 10 l ++ S ": " ++ kind ++ sep ++ S " here: " ++ g ++ [10], ?_⟩
    simp only [Where.place, List.append_assoc]
    rfl

/-- C125, as far as it holds: if logging or the callback are enabled, `handle_error` logs the message once with its place if logging is enabled, then calls the callback once if this is enabled and
there is one, with at most 1023 characters of the message, its size, and a zero after it.  It does not return: it leaves by the exception of the callback, or by one with the message if the flag for this is
set, or aborts.
Missing: that the exception has the message if neither logging nor the callback are enabled, and messages that cannot be formatted; see `C125_refuted`. -/
theorem C125_partial (throws : Bool) (cbs : Nat → Callback) (loc : Where) (t : List Nat) (s : Settings) (h : s.flags.testBit 1 = true ∨ s.flags.testBit 2 = true) :
    ∃ logs calls s' e, handleError throws cbs loc (some t) s = .ok (logs ++ calls, s', e) ∧
      (s.flags.testBit 1 = false → logs = []) ∧
      (s.flags.testBit 1 = true → ∃ log, logs = [.log log] ∧ Shows (S "ERROR") (stringMessage t) loc.place log) ∧
      (s.flags.testBit 2 = false ∨ s.callback = none → calls = [] ∧ s' = s ∧ e ≠ .callbackThrew) ∧
      (∀ cb, s.flags.testBit 2 = true → s.callback = some cb → calls = [.call cb (keptMessage t) true (keptMessage t).length] ∧ s' = (cbs cb (keptMessage t) s).1 ∧
        (e = .callbackThrew ↔ (cbs cb (keptMessage t) s).2 = true)) ∧
      (e ≠ .callbackThrew → e = if s'.flags.testBit 4 = true ∧ throws = true then .threw (stringMessage t) else .aborted) := by
  rw [handleError_eq throws cbs loc t s h]
  refine ⟨_, _, _, _, rfl, ?_, ?_, ?_, ?_, ?_⟩
  · intro h1
    rw [h1]
    rfl
  · intro h1
    rw [h1]
    exact ⟨_, rfl, logText_shows _ _ _ _⟩
  · intro h1
    have hc : (s.flags.testBit 2 && s.callback.isSome) = false := by
      rcases h1 with h1 | h1 <;> simp [h1]
    rw [hc]
    refine ⟨rfl, rfl, ?_⟩
    simp only [Bool.false_eq_true, if_false]
    split <;> simp
  · intro cb h1 h2
    have hc : (s.flags.testBit 2 && s.callback.isSome) = true := by simp [h1, h2]
    rw [hc]
    simp only [if_true, h2, Option.getD_some]
    refine ⟨trivial, trivial, ?_⟩
    cases (cbs cb (keptMessage t) s).2
    · simp only [Bool.false_eq_true, if_false, iff_false]
      split <;> simp
    · simp
  · generalize hr : (if (s.flags.testBit 2 && s.callback.isSome) = true then cbs (s.callback.getD 0) (keptMessage t) s else (s, false)) = r
    cases r.2
    · intro _
      simp
    · simp

/-- C125 if neither logging nor the callback are enabled, nor the exception: nothing is seen, and the program is aborted, whatever the message and even if the flag for this is not set. -/
theorem C125_silent (throws : Bool) (cbs : Nat → Callback) (loc : Where) (text : Option (List Nat)) (s : Settings) (h1 : s.flags.testBit 1 = false) (h2 : s.flags.testBit 2 = false)
    (h4 : s.flags.testBit 4 = false ∨ throws = false) : handleError throws cbs loc text s = .ok ([], s, .aborted) := by
  have hh : (s.flags.testBit 4 && throws) = false := by
    rcases h4 with h | h <;> simp [h]
  unfold handleError
  rw [has_either]
  generalize List.replicate 1024 (none : Option Nat) = buf
  have e1 : (s.flags.testBit 1 || s.flags.testBit 2) = false := by rw [h1, h2]; rfl
  rw [e1, has_log, h1, has_callback, h2]
  simp only [Bool.false_eq_true, if_false, Res.ok_bind, has_throw, hh, has_abort, List.append_nil]
  split <;> rfl

example : (⟨ON_ERROR_DEFAULTS, some 7⟩ : Settings).flags.testBit 1 = true ∧
    handleError true (fun _ _ _ => (⟨ON_ERROR_THROW, none⟩, false)) (.fileLine (S "a.cpp") 12) (some (S "bad")) ⟨ON_ERROR_DEFAULTS, some 7⟩ =
      .ok ([.log (S "\na.cpp:12: ERROR: bad\n"), .call 7 (S "bad") true 3], ⟨ON_ERROR_THROW, none⟩, .threw (S "bad")) := by decide +kernel

/-- C125 does not hold in general.  With the flag for exceptions alone, the array the message is taken from was not written; and so it is if the message cannot be formatted. -/
theorem C125_refuted (cbs : Nat → Callback) (loc : Where) :
    (∀ text, handleError true cbs loc text ⟨ON_ERROR_THROW, none⟩ = .ub) ∧ handleError true cbs loc none ⟨ON_ERROR_DEFAULTS, none⟩ = .ub := ⟨fun _ => rfl, rfl⟩

/-- C125 for warnings: they are logged, and control returns. -/
theorem C125_warning (loc : Where) (t : List Nat) : ∃ log, handleWarning loc (some t) = .ok [.log log] ∧ Shows (S "WARNING") (stringMessage t) loc.place log := by
  have hb : vsnprintf (some t) = ((t.length : Int), msgBuf t) := rfl
  have hs : cstring (msgBuf t) = .ok (stringMessage t) := cstring_msg _ _
  unfold handleWarning
  rw [hb]
  simp only [hs, Res.ok_bind]
  exact ⟨_, rfl, logText_shows _ _ _ _⟩

/-- What a statement does to the object `o` in the sense of the language. -/
def Touches (o : Nat) : Op → Prop
  | .setFlags _ => False
  | .setCallback _ => False
  | .scopeCallback i _ => i = o
  | .scopeFlags i _ => i = o
  | .scopeBoth i _ _ => i = o
  | .copy i _ => i = o
  | .destroy i => i = o

theorem step_saved {o : Nat} {op : Op} {st st' : State} (h : ¬ Touches o op) (hs : step st op = .ok st') : st'.saved o = st.saved o := by
  cases op with
  | setFlags f => cases hs; rfl
  | setCallback c => cases hs; rfl
  | scopeCallback i c =>
    have hne : o ≠ i := fun e => h e.symm
    simp only [step] at hs
    split at hs
    · cases hs
    · cases hs; exact Function.update_of_ne hne _ _
  | scopeFlags i c =>
    have hne : o ≠ i := fun e => h e.symm
    simp only [step] at hs
    split at hs
    · cases hs
    · cases hs; exact Function.update_of_ne hne _ _
  | scopeBoth i f c =>
    have hne : o ≠ i := fun e => h e.symm
    simp only [step] at hs
    split at hs
    · cases hs
    · cases hs; exact Function.update_of_ne hne _ _
  | copy i j =>
    have hne : o ≠ i := fun e => h e.symm
    simp only [step] at hs
    split at hs
    · cases hs
    · split at hs
      · cases hs
      · cases hs; exact Function.update_of_ne hne _ _
  | destroy i =>
    have hne : o ≠ i := fun e => h e.symm
    simp only [step] at hs
    split at hs
    · cases hs
    · cases hs; exact Function.update_of_ne hne _ _

theorem run_saved {o : Nat} : ∀ {ops : List Op} {st st' : State}, (∀ op ∈ ops, ¬ Touches o op) → run ops st = .ok st' → st'.saved o = st.saved o := by
  intro ops
  induction ops with
  | nil =>
    intro st st' _ h
    cases h
    rfl
  | cons op ops ih =>
    intro st st' hn h
    unfold run at h
    cases hs : step st op with
    | ok st1 =>
      rw [hs, Res.ok_bind] at h
      rw [ih (fun x hx => hn x (List.mem_cons_of_mem _ hx)) h, step_saved (hn op List.mem_cons_self) hs]
    | ub => rw [hs] at h; cases h
    | abort => rw [hs] at h; cases h
    | loop => rw [hs] at h; cases h

theorem run_append (a b : List Op) (st : State) : run (a ++ b) st = run a st >>= run b := by
  induction a generalizing st with
  | nil => rfl
  | cons op a ih =>
    show (step st op >>= fun s => run (a ++ b) s) = (step st op >>= fun s => run a s) >>= run b
    cases step st op with
    | ok s => exact ih s
    | ub => rfl
    | abort => rfl
    | loop => rfl

/-- C126, as far as it holds: from its construction on, a `ScopedErrorSettings` has put its settings in force; when it is destroyed, the settings are those before its construction again, whatever was
done in between: by setters, by other such objects, by copies of it. -/
theorem C126_partial (o : Nat) (st : State) (ho : st.saved o = none) (flags : Nat) (cb : Option Nat) (ctor : Op) (after : Settings)
    (hc : (ctor = .scopeCallback o cb ∧ after = ⟨st.now.flags, cb⟩) ∨ (ctor = .scopeFlags o flags ∧ after = ⟨flags, st.now.callback⟩) ∨ (ctor = .scopeBoth o flags cb ∧ after = ⟨flags, cb⟩)) :
    ∃ st1, run [ctor] st = .ok st1 ∧ st1.now = after ∧
      ∀ ops st2, (∀ op ∈ ops, ¬ Touches o op) → run ops st1 = .ok st2 → ∃ st3, run (ctor :: ops ++ [.destroy o]) st = .ok st3 ∧ st3.now = st.now ∧ st3.saved o = none := by
  obtain ⟨st1, h1, h2, h3⟩ : ∃ st1, step st ctor = .ok st1 ∧ st1.now = after ∧ st1.saved o = some st.now := by
    have hi : ¬ (st.saved o).isSome = true := by rw [ho]; exact Bool.false_ne_true
    rcases hc with ⟨rfl, rfl⟩ | ⟨rfl, rfl⟩ | ⟨rfl, rfl⟩
    · exact ⟨_, if_neg hi, rfl, Function.update_self _ _ _⟩
    · exact ⟨_, if_neg hi, rfl, Function.update_self _ _ _⟩
    · exact ⟨_, if_neg hi, rfl, Function.update_self _ _ _⟩
  refine ⟨st1, by unfold run; rw [h1]; rfl, h2, fun ops st2 hn hr => ?_⟩
  have h4 := run_saved hn hr
  rw [h3] at h4
  refine ⟨⟨st.now, Function.update st2.saved o none⟩, ?_, rfl, Function.update_self _ _ _⟩
  show (step st ctor >>= fun s => run (ops ++ [.destroy o]) s) = _
  rw [h1, Res.ok_bind, run_append, hr, Res.ok_bind]
  simp only [run, step, h4]
  rfl

example : (run [.scopeBoth 0 4 (some 1), .scopeCallback 1 none, .setFlags 8, .destroy 1, .destroy 0] ⟨⟨15, none⟩, fun _ => none⟩).bind (fun s => .ok s.now) = .ok ⟨15, none⟩ := by decide +kernel

/-- C126 does not hold in general.  If of two objects the first is destroyed first, the settings of the first remain in force when both are gone.  If a function returns the object by value and the
copy is not elided, then its settings are not in force in the caller. -/
theorem C126_refuted : ((run [.scopeBoth 0 4 (some 1), .scopeBoth 1 2 none, .destroy 0, .destroy 1] ⟨⟨15, none⟩, fun _ => none⟩).bind fun s => .ok s.now) = .ok ⟨4, some 1⟩ ∧
    ((run [.scopeBoth 0 4 (some 1), .copy 1 0, .destroy 0] ⟨⟨15, none⟩, fun _ => none⟩).bind fun s => .ok s.now) = .ok ⟨15, none⟩ := by decide +kernel

/-- The text that names the debugger in /proc/self/status. -/
def tracerKey : List Nat := S "TracerPid:"

theorem strstr_first (pat : List Nat) (hp : pat ≠ []) (hz : 0 ∉ pat) (rest : List Nat) : ∀ (pre : List Nat) (pos : Nat), 0 ∉ pre → (∀ i < pre.length, ¬ pat <+: (pre ++ pat).drop i) →
    strstr pat (pre ++ pat ++ rest) pos = .ok (some (pos + pre.length)) := by
  intro pre
  induction pre with
  | nil =>
    intro pos _ _
    obtain ⟨c, r, rfl⟩ := List.exists_cons_of_ne_nil hp
    show strstr _ (c :: (r ++ rest)) pos = _
    unfold strstr
    rw [if_pos (show c :: r <+: c :: (r ++ rest) from List.prefix_append (c :: r) rest)]
    rfl
  | cons c pre ih =>
    intro pos h0 hn
    have h1 : ¬ pat <+: c :: (pre ++ pat ++ rest) := by
      intro h
      refine hn 0 (by simp) ?_
      have h' : pat <+: c :: (pre ++ pat) := by
        refine List.prefix_of_prefix_length_le h (l₂ := c :: (pre ++ pat)) ?_ (by simp; omega)
        exact ⟨rest, by simp⟩
      exact h'
    show strstr pat (c :: (pre ++ pat ++ rest)) pos = _
    unfold strstr
    rw [if_neg h1, if_neg (fun e => h0 (by rw [e]; exact List.mem_cons_self)), ih (pos + 1) (fun h => h0 (List.mem_cons_of_mem _ h)) (fun i hi => ?_)]
    · simp; omega
    · exact hn (i + 1) (by simpa using hi)

theorem atoiDigits_eq (ds : List Nat) (c : Nat) (r : List Nat) (n : Nat) (hd : ∀ d ∈ ds, 48 ≤ d ∧ d ≤ 57) (hc : ¬ (48 ≤ c ∧ c ≤ 57)) :
    atoiDigits (ds ++ c :: r) n = .ok ((ds.map (· - 48)).foldl (fun a d => a * 10 + d) n) := by
  induction ds generalizing n with
  | nil => unfold atoiDigits; rw [List.nil_append]; simp [hc]
  | cons d ds ih =>
    show atoiDigits (d :: (ds ++ c :: r)) n = _
    unfold atoiDigits
    rw [if_pos (hd d List.mem_cons_self), ih _ (fun x hx => hd x (List.mem_cons_of_mem _ hx))]
    rfl

/-- C127, as far as it holds: at the first call, if what is read from /proc/self/status has a line "TracerPid:", a tab and the number of the debugger's process, which is complete, and nothing before
that looks like it, the result says whether this number is not 0.  Later calls give the same result.
Missing: the state at a later call, and other contents; see `C127_refuted`. -/
theorem C127_partial (pre rest : List Nat) (pid : Nat) (hpid : pid < 2 ^ 31) (d : Dbg) (hd : d.first = true)
    (h0 : 0 ∉ pre) (hfirst : ∀ i < pre.length, ¬ tracerKey <+: (pre ++ tracerKey).drop i) (other : Status) :
    isDebuggerAttached (.bytes (pre ++ tracerKey ++ (9 :: numeralText 10 pid ++ 10 :: rest))) d = .ok (decide (pid ≠ 0), ⟨false, decide (pid ≠ 0)⟩) ∧
    isDebuggerAttached other ⟨false, decide (pid ≠ 0)⟩ = .ok (decide (pid ≠ 0), ⟨false, decide (pid ≠ 0)⟩) := by
  refine ⟨?_, rfl⟩
  unfold isDebuggerAttached
  rw [if_pos hd]
  dsimp only
  have hk : tracerKey.length = 10 := rfl
  rw [if_pos (by simp only [List.length_append, hk]; omega)]
  generalize hz : List.replicate _ 0 = z
  have hs := strstr_first tracerKey (by decide) (by decide) (9 :: numeralText 10 pid ++ 10 :: rest ++ z) pre 0 h0 hfirst
  rw [← List.append_assoc] at hs
  have hdig : ∀ c ∈ numeralText 10 pid, 48 ≤ c ∧ c ≤ 57 := by
    intro c hc
    unfold numeralText at hc
    obtain ⟨x, hx, rfl⟩ := List.mem_map.1 hc
    have := numeral_digits (by decide) x hx
    unfold digitChar
    rw [if_pos this]
    omega
  have hval : (((numeralText 10 pid).map (· - 48)).foldl (fun a d => a * 10 + d) 0) = pid := by
    have e : (numeralText 10 pid).map (· - 48) = numeral 10 pid := by
      unfold numeralText
      rw [List.map_map]
      conv => rhs; rw [← List.map_id (numeral 10 pid)]
      refine List.map_congr_left fun x hx => ?_
      have := numeral_digits (by decide) x hx
      simp [digitChar, this]
    rw [e]
    exact value_numeral (by decide) pid
  have ha : libAtoi (9 :: numeralText 10 pid ++ 10 :: rest ++ z) = .ok (pid : Int) := by
    obtain ⟨c, r, hcr⟩ := List.exists_cons_of_ne_nil (show numeralText 10 pid ≠ [] by
      unfold numeralText
      simpa using numeral_ne_nil (by decide) pid)
    have hc := hdig c (by rw [hcr]; exact List.mem_cons_self)
    have hb : atoiBlanks (9 :: numeralText 10 pid ++ 10 :: rest ++ z) = .ok (numeralText 10 pid ++ 10 :: (rest ++ z)) := by
      rw [hcr]
      simp [atoiBlanks]
      omega
    unfold libAtoi
    rw [hb, Res.ok_bind]
    have h1 := atoiDigits_eq (numeralText 10 pid) 10 (rest ++ z) 0 hdig (by decide)
    rw [hval] at h1
    split
    · rename_i h
      rw [hcr] at h
      cases h
      omega
    · rename_i h
      rw [hcr] at h
      cases h
      omega
    · rw [h1, Res.ok_bind, if_pos hpid]
  show (strstr tracerKey _ 0 >>= _) = _
  rw [hs, Res.ok_bind]
  dsimp only
  rw [show (S "TracerPid:") = tracerKey from rfl, Nat.zero_add, List.append_assoc, List.append_assoc, ← List.drop_drop, List.drop_left, List.drop_left]
  rw [ha, Res.ok_bind]
  simp

example : ∀ i < (S "Name:\tgdb\n").length, ¬ tracerKey <+: (S "Name:\tgdb\n" ++ tracerKey).drop i := by decide +kernel

/-- C127 does not hold in general.  The answer of the first call is kept when a debugger is attached later; a program whose name is "TracerPid:1" is taken for one that is debugged; and if the first 1024
characters of the file do not name the debugger, the array is read beyond its end. -/
theorem C127_refuted :
    (∃ d, isDebuggerAttached (.bytes (S "TracerPid:\t0\n")) ⟨true, false⟩ = .ok (false, d) ∧ isDebuggerAttached (.bytes (S "TracerPid:\t77\n")) d = .ok (false, d)) ∧
    (∃ d, isDebuggerAttached (.bytes (S "Name:\tTracerPid:1\nTracerPid:\t0\n")) ⟨true, false⟩ = .ok (true, d)) ∧
    isDebuggerAttached (.bytes (List.replicate 1024 65)) ⟨true, false⟩ = .ub := by
  refine ⟨⟨⟨false, false⟩, by decide +kernel, by decide +kernel⟩, ⟨⟨false, true⟩, by decide +kernel⟩, by decide +kernel⟩

end C4
