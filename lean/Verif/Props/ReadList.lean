import Verif.Props.FormatRead
import Verif.Props.CharconvConvert
/-
Property C141: what a successful call of uncat, uncatsep or unformat says about an arbitrary text.
-/
namespace C4
open Spec

/-- The number texts an argument of type `t` is read from: those of unsigned types have no minus sign. -/
def Spec.NumberFor (t : ITy) : List Nat → Int → Prop := if t.sgn then IntDenotes else uintInt

/-- Specification: the first `n` characters of `s` are the number texts of `vs`, in this order, each after any blanks. -/
inductive Spec.NumbersAt : List ITy → List Nat → Nat → List Int → Prop
  | nil (s : List Nat) : NumbersAt [] s 0 []
  | cons {t : ITy} {ts : List ITy} {s : List Nat} {n m : Nat} {v : Int} {vs : List Int} :
      FirstNumber t (NumberFor t) s n v → NumbersAt ts (s.drop n) m vs → NumbersAt (t :: ts) s (n + m) (v :: vs)

/-- The same with one character before each number. -/
inductive Spec.MoreNumbersAt : List ITy → List Nat → Nat → List Int → Prop
  | nil (s : List Nat) : MoreNumbersAt [] s 0 []
  | cons {t : ITy} {ts : List ITy} {c : Nat} {s : List Nat} {n m : Nat} {v : Int} {vs : List Int} :
      FirstNumber t (NumberFor t) s n v → MoreNumbersAt ts (s.drop n) m vs → MoreNumbersAt (t :: ts) (c :: s) (1 + n + m) (v :: vs)

/-- Specification: number texts with one character between them. -/
inductive Spec.SeparatedAt : List ITy → List Nat → Nat → List Int → Prop
  | nil (s : List Nat) : SeparatedAt [] s 0 []
  | cons {t : ITy} {ts : List ITy} {s : List Nat} {n m : Nat} {v : Int} {vs : List Int} :
      FirstNumber t (NumberFor t) s n v → MoreNumbersAt ts (s.drop n) m vs → SeparatedAt (t :: ts) s (n + m) (v :: vs)

/-- Specification: for each argument in turn, a number text after as many characters as the format has before its next mark; the count is
that of the characters up to the last number, and of the characters of the format after its mark. -/
inductive Spec.MarkedAt : List ITy → List Nat → List Nat → Nat → List Int → Prop
  | nil (fmt s : List Nat) : MarkedAt [] fmt s fmt.length []
  | noMark {ts : List ITy} {fmt s : List Nat} : (∀ i, ¬ OccursAt fmt mark i) → MarkedAt ts fmt s fmt.length []
  | cons {t : ITy} {ts : List ITy} {pre post s : List Nat} {n m : Nat} {v : Int} {vs : List Int} :
      (∀ i < pre.length, ¬ OccursAt (pre ++ mark ++ post) mark i) →
      FirstNumber t (NumberFor t) (s.drop pre.length) n v → MarkedAt ts post (s.drop (pre.length + n)) m vs →
      MarkedAt (t :: ts) (pre ++ mark ++ post) s (pre.length + n + m) (v :: vs)

theorem firstNumber_le {t : ITy} {D : List Nat → Int → Prop} {s : List Nat} {n : Nat} {v : Int} (h : FirstNumber t D s n v) : n ≤ s.length := by
  obtain ⟨ws, tok, rest, val, rfl, -, -, rfl, -⟩ := h
  simp only [List.length_append]
  omega

theorem firstInt_sound (t : ITy) (s : List Nat) : ∃ r, firstInt t s = .ok r ∧ ∀ n v, r = some (n, v) → FirstNumber t (NumberFor t) s n v := by
  unfold firstInt NumberFor
  cases h : t.sgn with
  | true => simpa using C18_atoi_first t s
  | false => simpa using C18_atou_first t s

theorem readRest_drop {s : List Nat} {n : Nat} (h : n ≤ s.length) : readRest s n = s.drop n := by
  unfold readRest
  rw [if_pos h]

theorem numbersAt_le {ts : List ITy} {s : List Nat} {n : Nat} {vs : List Int} (h : NumbersAt ts s n vs) : n ≤ s.length ∧ vs.length = ts.length := by
  induction h with
  | nil s => exact ⟨by omega, rfl⟩
  | cons h1 _ ih =>
    have := firstNumber_le h1
    have := ih.1
    rw [List.length_drop] at this
    exact ⟨by omega, by simp [ih.2]⟩

theorem moreAt_le {ts : List ITy} {s : List Nat} {n : Nat} {vs : List Int} (h : MoreNumbersAt ts s n vs) : n ≤ s.length ∧ vs.length = ts.length := by
  induction h with
  | nil s => exact ⟨by omega, rfl⟩
  | cons h1 _ ih =>
    have := firstNumber_le h1
    have := ih.1
    rw [List.length_drop] at this
    exact ⟨by rw [List.length_cons]; omega, by simp [ih.2]⟩

/-- **C141** for `uncat`: it always returns, and if not npos then the characters counted are number texts of the values stored. -/
theorem C141_uncat (ts : List ITy) (s : List Nat) :
    ∃ r, uncat ts s = .ok r ∧ ∀ n vs, r = some (n, vs) → NumbersAt ts s n vs ∧ n ≤ s.length ∧ vs.length = ts.length := by
  induction ts generalizing s with
  | nil => exact ⟨_, rfl, fun n vs h => by cases h; exact ⟨.nil s, by omega, rfl⟩⟩
  | cons t ts ih =>
    obtain ⟨r, e, h⟩ := firstInt_sound t s
    rw [uncat, e, Res.ok_bind]
    cases r with
    | none => exact ⟨none, rfl, by simp⟩
    | some p =>
      obtain ⟨n, v⟩ := p
      have hn := h n v rfl
      dsimp only
      rw [readRest_drop (firstNumber_le hn)]
      obtain ⟨r2, e2, h2⟩ := ih (s.drop n)
      rw [e2, Res.ok_bind]
      cases r2 with
      | none => exact ⟨none, rfl, by simp⟩
      | some q =>
        obtain ⟨m, vs⟩ := q
        refine ⟨_, rfl, fun n' vs' h' => ?_⟩
        cases h'
        have := NumbersAt.cons hn (h2 m vs rfl).1
        exact ⟨this, numbersAt_le this⟩

theorem uncatsepMore_sound (ts : List ITy) (s : List Nat) :
    ∃ r, uncatsepMore ts s = .ok r ∧ ∀ n vs, r = some (n, vs) → MoreNumbersAt ts s n vs := by
  induction ts generalizing s with
  | nil => exact ⟨_, rfl, fun n vs h => by cases h; exact .nil s⟩
  | cons t ts ih =>
    cases s with
    | nil => exact ⟨none, rfl, by simp⟩
    | cons c s =>
      have e0 : fromCharsFirstChar (c :: s) = .ok (some (1, c)) := rfl
      rw [uncatsepMore, e0, Res.ok_bind]
      dsimp only
      rw [readRest_drop (by simp), List.drop_one, List.tail_cons]
      obtain ⟨r, e, h⟩ := firstInt_sound t s
      rw [e, Res.ok_bind]
      cases r with
      | none => exact ⟨none, rfl, by simp⟩
      | some p =>
        obtain ⟨n, v⟩ := p
        have hn := h n v rfl
        dsimp only
        rw [readRest_drop (firstNumber_le hn)]
        obtain ⟨r2, e2, h2⟩ := ih (s.drop n)
        rw [e2, Res.ok_bind]
        cases r2 with
        | none => exact ⟨none, rfl, by simp⟩
        | some q =>
          obtain ⟨m, vs⟩ := q
          refine ⟨_, rfl, fun n' vs' h' => ?_⟩
          cases h'
          exact .cons hn (h2 m vs rfl)

/-- **C141** for `uncatsep` with a character as separator: the character between two numbers may be any. -/
theorem C141_uncatsep (ts : List ITy) (s : List Nat) :
    ∃ r, uncatsep ts s = .ok r ∧ ∀ n vs, r = some (n, vs) → SeparatedAt ts s n vs ∧ n ≤ s.length ∧ vs.length = ts.length := by
  cases ts with
  | nil => exact ⟨_, rfl, fun n vs h => by cases h; exact ⟨.nil s, by omega, rfl⟩⟩
  | cons t ts =>
    obtain ⟨r, e, h⟩ := firstInt_sound t s
    rw [uncatsep, e, Res.ok_bind]
    cases r with
    | none => exact ⟨none, rfl, by simp⟩
    | some p =>
      obtain ⟨n, v⟩ := p
      have hn := h n v rfl
      have hle := firstNumber_le hn
      dsimp only
      rw [readRest_drop hle]
      obtain ⟨r2, e2, h2⟩ := uncatsepMore_sound ts (s.drop n)
      rw [e2, Res.ok_bind]
      cases r2 with
      | none => exact ⟨none, rfl, by simp⟩
      | some q =>
        obtain ⟨m, vs⟩ := q
        refine ⟨_, rfl, fun n' vs' h' => ?_⟩
        cases h'
        have hm := h2 m vs rfl
        have hl := moreAt_le hm
        rw [List.length_drop] at hl
        exact ⟨.cons hn hm, by omega, by simp [hl.2]⟩

/-- **C141** for `unformat`, the part that holds: the values stored are those of number texts, each after as many characters as the format
has before its mark, and the count is that of the text if it is long enough for the end of the format.  Missing: that these characters are those of the format, and that no more characters are counted than there are
(both false, see `C141_refuted`). -/
theorem C141_unformat_partial (ts : List ITy) (fmt s : List Nat) :
    ∃ r, unformat ts fmt s = .ok r ∧ ∀ n vs, r = some (n, vs) → MarkedAt ts fmt s n vs := by
  induction ts generalizing fmt s with
  | nil => exact ⟨_, rfl, fun n vs h => by cases h; exact .nil fmt s⟩
  | cons t ts ih =>
    obtain ⟨r0, e0, h1, h2⟩ := C29_find fmt [123, 125] 0
    rw [unformat, e0, Res.ok_bind]
    cases r0 with
    | none =>
      exact ⟨_, rfl, fun n vs h => by cases h; exact .noMark fun i => h2.mp rfl i (Nat.zero_le _)⟩
    | some pos =>
      obtain ⟨_, ⟨pre, post, rfl, rfl⟩, hno⟩ := (h1 pos).mp rfl
      have hd : ∀ s n, readRest s n = s.drop n := by
        intro s n
        unfold readRest
        split
        · rfl
        · rw [List.drop_eq_nil_of_le (by omega)]
      dsimp only
      rw [hd]
      obtain ⟨r, e, h⟩ := firstInt_sound t (s.drop pre.length)
      rw [e, Res.ok_bind]
      cases r with
      | none => exact ⟨none, rfl, by simp⟩
      | some p =>
        obtain ⟨n, v⟩ := p
        have hn := h n v rfl
        dsimp only
        rw [hd, List.drop_drop, show List.drop (pre.length + 2) (pre ++ [123, 125] ++ post) = post from drop_mark pre post]
        obtain ⟨r2, e2, h3⟩ := ih post (s.drop (pre.length + n))
        rw [e2, Res.ok_bind]
        cases r2 with
        | none => exact ⟨none, rfl, by simp⟩
        | some q =>
          obtain ⟨m, vs⟩ := q
          refine ⟨_, rfl, fun n' vs' h' => ?_⟩
          cases h'
          exact .cons (fun i hi => hno i (Nat.zero_le _) hi) hn (h3 m vs rfl)

/-- **C141 is false** for `unformat`: text that is not the one of the format is accepted, and more characters are reported as read than there are. -/
theorem C141_refuted :
    unformat [⟨.w32, true⟩] (S "a={}") (S "?!7") = .ok (some (3, [7])) ∧
    unformat [⟨.w32, true⟩] (S "{} apples") (S "7") = .ok (some (8, [7])) ∧
    unformat [⟨.w32, true⟩] (S "no mark") (S "") = .ok (some (7, [])) := by decide +kernel

example : uncat [⟨.w32, true⟩, ⟨.w8, false⟩] (S " -7  300,") = .ok (some (8, [-7, 44])) := by decide +kernel
example : uncat [⟨.w32, true⟩, ⟨.w8, false⟩] (S "7 -3") = .ok none ∧ uncatsep [⟨.w32, true⟩, ⟨.w8, false⟩] (S "7,-3") = .ok none := by decide +kernel
example : uncatsep [⟨.w32, true⟩, ⟨.w8, false⟩] (S "-7, 3;x") = .ok (some (5, [-7, 3])) := by decide +kernel

end C4
