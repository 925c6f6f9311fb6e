import Verif.Props.MemRes
import Verif.Props.FormatAlign
import Verif.Props.CharconvConvert
/-
Exact outcomes for further properties that are false of the code: C69 (chunks), C84 (pointers), C85 (raw data); C18 both ways.
-/
namespace C4
open Spec

/-! ### C69 -/

/-- A call on a live linear resource, as seen by its user: an allocation, reallocation or release of a block, or `clear()`; `acquire(sz)`,
after which the memory begins at `q`; `acquire(mem, sz)`; `release()`. -/
inductive Spec.ChunkCall where
  | use
  | acquire (q sz : Nat)
  | borrow (q sz : Nat)
  | release

/-- What the destructor will give to the parent after the calls: the memory of the last `acquire(sz)`, nothing after
`acquire(mem, sz)` or `release()`, and otherwise what it would have before. -/
def Spec.owned : Option (Nat × Nat) → List ChunkCall → Option (Nat × Nat)
  | o, [] => o
  | o, .use :: l => owned o l
  | _, .acquire q sz :: l => owned (some (q, sz)) l
  | _, .borrow _ _ :: l => owned none l
  | _, .release :: l => owned none l

/-- Histories of calls, none of which was an error. -/
inductive ChunkHist : Chunk → List ChunkCall → Chunk → Prop where
  | nil (c) : ChunkHist c [] c
  | use {c c' c'' l} : ChunkUse c c' → ChunkHist c' l c'' → ChunkHist c (.use :: l) c''
  | acquire {c c' c'' sz l} : chunkAcquire c sz = .ok c' → ChunkHist c' l c'' → ChunkHist c (.acquire c'.lin.mem sz :: l) c''
  | borrow {c c'' q sz l} : ChunkHist (chunkAcquireBorrowed c q sz) l c'' → ChunkHist c (.borrow q sz :: l) c''
  | release {c c'' l} : ChunkHist (chunkRelease c) l c'' → ChunkHist c (.release :: l) c''

/-- The destructor gives `o` to the parent. -/
def willReturn (c : Chunk) (o : Option (Nat × Nat)) : Prop :=
  match o with
  | none => ¬ (c.lin.mem ≠ 0 ∧ c.owner = true)
  | some (p, sz) => c.lin.mem ≠ 0 ∧ c.owner = true ∧ c.lin.mem = p ∧ c.lin.size = sz

theorem chunkAcquire_ok {c c' : Chunk} {sz : Nat} (e : chunkAcquire c sz = .ok c') :
    c'.lin.mem ≠ 0 ∧ c'.lin.size = sz ∧ c'.owner = true ∧ c'.log = c.log := by
  unfold chunkAcquire at e
  dsimp only at e
  cases h : linAllocate (linClear c.lin) sz 16 with
  | ok r =>
    rw [h] at e
    have hn := checkNonNull_ok h
    cases e
    exact ⟨hn.2, rfl, rfl, rfl⟩
  | ub => rw [h] at e; cases e
  | abort => rw [h] at e; cases e
  | loop => rw [h] at e; cases e

theorem chunkHist_owned {c c' : Chunk} {l : List ChunkCall} (h : ChunkHist c l c') :
    ∀ o, willReturn c o → willReturn c' (owned o l) ∧ c'.log = c.log := by
  induction h with
  | nil => intro o ho; exact ⟨ho, rfl⟩
  | use hu _ ih =>
    intro o ho
    obtain ⟨h1, h2, h3, h4⟩ := chunkUse_same hu
    have := ih o (by unfold willReturn at ho ⊢; rw [h1, h2, h3]; exact ho)
    exact ⟨this.1, this.2.trans h4⟩
  | @acquire c c' c'' sz l e _ ih =>
    intro o _
    obtain ⟨h1, h2, h3, h4⟩ := chunkAcquire_ok e
    have := ih (some (c'.lin.mem, sz)) ⟨h1, h3, rfl, h2⟩
    exact ⟨this.1, this.2.trans h4⟩
  | borrow _ ih =>
    intro o _
    exact ih none (by simp [willReturn, chunkAcquireBorrowed])
  | @release c c'' l _ ih =>
    intro o _
    have := ih none (by simp [willReturn, chunkRelease])
    refine ⟨this.1, this.2.trans ?_⟩
    unfold chunkRelease
    dsimp only
    split <;> rfl

/-- **C69**, exactly: whatever is called on a live linear resource, its parent is not; and the destructor gives to the parent what `owned` says: the
memory of the constructor only if there was no `acquire` or `release` at all, a part of it (or of borrowed memory) after `acquire(sz)`, nothing after
`acquire(mem, sz)` or `release()`. -/
theorem C69_history_exact (o : Bool) (p sz : Nat) {c : Chunk} {l : List ChunkCall} :
    (p ≠ 0 → ChunkHist (chunkCtorOwned o p sz) l c → c.log = [.alloc p sz] ∧
      (chunkDtor c).log = .alloc p sz :: ((owned (some (p, sz)) l).map fun x => PEv.dealloc x.1 x.2).toList) ∧
    (∀ c0, c0 = chunkEmpty o ∨ c0 = chunkAcquireBorrowed (chunkEmpty o) p sz → ChunkHist c0 l c → c.log = [] ∧
      (chunkDtor c).log = ((owned none l).map fun x => PEv.dealloc x.1 x.2).toList) := by
  have key : ∀ {c : Chunk} {x : Option (Nat × Nat)}, willReturn c x →
      (chunkDtor c).log = c.log ++ (x.map fun x => PEv.dealloc x.1 x.2).toList := by
    intro c x hx
    unfold chunkDtor
    dsimp only
    cases x with
    | none => unfold willReturn at hx; rw [if_neg hx]; simp
    | some y => obtain ⟨h1, h2, h3, h4⟩ := hx; rw [if_pos ⟨h1, h2⟩, h3, h4]; rfl
  refine ⟨fun hp h => ?_, fun c0 hc h => ?_⟩
  · obtain ⟨h1, h2⟩ := chunkHist_owned h (some (p, sz)) ⟨hp, rfl, rfl, rfl⟩
    have h3 := key h1
    rw [h2] at h3
    exact ⟨h2, h3⟩
  · have hw : willReturn c0 none := by
      rcases hc with rfl | rfl
      · simp [willReturn, chunkEmpty]
      · simp [willReturn, chunkAcquireBorrowed]
    obtain ⟨h1, h2⟩ := chunkHist_owned h none hw
    have h3 := key h1
    have h4 : c0.log = [] := by rcases hc with rfl | rfl <;> rfl
    rw [h2, h4] at h3
    exact ⟨h2.trans h4, h3⟩

/-- Acquired twice, then an allocation: the parent gets back the second of the parts. -/
example : ChunkHist (chunkCtorOwned false 1032 64) [.acquire 1040 32, .use, .acquire 1040 8, .use] ⟨⟨1040, 8, 4⟩, true, [.alloc 1032 64]⟩ ∧
    owned (some (1032, 64)) [.acquire 1040 32, .use, .acquire 1040 8, .use] = some (1040, 8) := by
  refine ⟨?_, rfl⟩
  exact .acquire (c' := ⟨⟨1040, 32, 0⟩, true, [.alloc 1032 64]⟩) (by decide +kernel)
    (.use (.alloc (.refl _) (sz := 20) (al := 4) (p := 1040) (s := ⟨1040, 32, 20⟩) (by decide +kernel))
      (.acquire (c' := ⟨⟨1040, 8, 0⟩, true, [.alloc 1032 64]⟩) (by decide +kernel)
        (.use (.alloc (.refl _) (sz := 4) (al := 4) (p := 1040) (s := ⟨1040, 8, 4⟩) (by decide +kernel)) (.nil _))))

/-! ### C18 -/

theorem digits_run {b : Nat} {P : Nat → Prop} (hP : ∀ c d, charDigit c = some d → d < b → P c) {s : List Nat} {n : Nat} (h : DigitText b s n) :
    Run P s := by
  obtain ⟨h0, ds, hd, hv⟩ := h
  refine ⟨h0, ?_⟩
  clear h0 hv
  induction s generalizing ds with
  | nil => intro c hc; cases hc
  | cons x s ih =>
    obtain ⟨d, vs, rfl, h1, h2, h3⟩ := isDigits_cons.mp hd
    intro c hc
    rcases List.mem_cons.mp hc with rfl | hc
    · exact hP _ d h1 h2
    · exact ih vs h3 c hc

theorem uintDenotes_body {s : List Nat} {n : Nat} (h : UintDenotes s n) : IntBody s := by
  cases h with
  | dec h =>
    refine .dec (digits_run (fun c d hc hd => ?_) h)
    unfold charDigit at hc; unfold DecChar
    split at hc
    · assumption
    · split at hc
      · cases hc; omega
      · split at hc
        · cases hc; omega
        · cases hc
  | @pre c r s n hr h =>
    unfold radixOf at hr
    split at hr
    · next g =>
      cases hr
      refine .hex g (digits_run (fun c d hc hd => ?_) h)
      unfold charDigit at hc; unfold HexChar
      split at hc
      · exact .inl ‹_›
      · split at hc
        · exact .inr (.inl ‹_›)
        · split at hc
          · exact .inr (.inr ‹_›)
          · cases hc
    · split at hr
      · next g =>
        cases hr
        refine .oct g (digits_run (fun c d hc hd => ?_) h)
        unfold charDigit at hc; unfold OctChar
        split at hc
        · cases hc; omega
        · split at hc
          · cases hc; omega
          · split at hc
            · cases hc; omega
            · cases hc
      · split at hr
        · next g =>
          cases hr
          refine .bin g (digits_run (fun c d hc hd => ?_) h)
          unfold charDigit at hc; unfold BinChar
          split at hc
          · cases hc; omega
          · split at hc
            · cases hc; omega
            · split at hc
              · cases hc; omega
              · cases hc
        · cases hr

theorem first_complete {t : ITy} {T : List Nat → Prop} {D : List Nat → Int → Prop} {span : List Nat → Res Rng}
    {conv : List Nat → Res (Bool × Int × Bool)} (hspan : SpanContract span T)
    (hconv : ∀ s, ∃ r, conv s = .ok r ∧ Reads t (D s) r) (hDT : ∀ s x, D s x → T s) {s : List Nat} {n : Nat} {v : Int}
    (h : FirstNumber t D s n v) :
    (do
        let r ← span s
        if r.2 = 0 then .ok none
        else do
          let (ok, v, _) ← conv (Rng.of s r)
          .ok (if ok then some (r.1 + r.2, v) else none)) = Res.ok (some (n, v)) := by
  obtain ⟨ws, tok, rest, x, e1, e2, e3, e4, e5, e6, e7⟩ := h
  obtain ⟨r, hs, _, h2, _⟩ := hspan s
  have hr := h2 ws.length tok.length ⟨ws, tok, rest, e1, e2, hDT _ _ e6, e3, rfl, rfl⟩
  subst hr
  have hof : Rng.of s (ws.length, tok.length) = tok := by rw [e1, Rng_of_mid]
  obtain ⟨⟨b, w, o⟩, c1, c2, c3⟩ := hconv tok
  have hl := List.length_pos_iff.mpr e5
  rw [hs, Res.ok_bind, if_neg (by show ¬ tok.length = 0; omega), hof, c1, Res.ok_bind]
  have hb : b = true := c2.mpr ⟨x, e6⟩
  subst hb
  have hw : w = v := (c3 x e6).unique e7
  subst hw
  rw [e4]
  rfl

/-- **C18**, both ways: `atoi_first` returns `n` and stores `v` if and only if the first `n` characters are blanks and a number text whose
value in the type is `v`, followed by the end or a delimiter; so npos is returned only if there is no such number. -/
theorem C18_atoi_first_iff (t : ITy) (s : List Nat) (n : Nat) (v : Int) :
    atoiFirst t s = .ok (some (n, v)) ↔ FirstNumber t IntDenotes s n v := by
  refine ⟨fun h => ?_, fun h => ?_⟩
  · obtain ⟨r, e, hr⟩ := C18_atoi_first t s
    rw [h] at e
    cases e
    exact hr n v rfl
  · refine first_complete firstIntSpan_contract (C12_atoi t) (fun s x hx => ?_) h
    cases hx with
    | pos hu => exact ⟨[], s, rfl, .inl rfl, uintDenotes_body hu⟩
    | neg hu => exact ⟨[45], _, rfl, .inr (.inr ⟨rfl, rfl⟩), uintDenotes_body hu⟩

/-- **C18**, both ways, for `atou_first`. -/
theorem C18_atou_first_iff (t : ITy) (s : List Nat) (n : Nat) (v : Int) :
    atouFirst t s = .ok (some (n, v)) ↔ FirstNumber t uintInt s n v := by
  refine ⟨fun h => ?_, fun h => ?_⟩
  · obtain ⟨r, e, hr⟩ := C18_atou_first t s
    rw [h] at e
    cases e
    exact hr n v rfl
  · refine first_complete firstUintSpan_contract (C11_atou t) (fun s x hx => ?_) h
    obtain ⟨m, hm, _⟩ := hx
    exact ⟨[], s, rfl, .inl rfl, uintDenotes_body hm⟩

/-- A number that is not followed by a delimiter is no first number. -/
example : ¬ ∃ n v, FirstNumber ⟨.w32, true⟩ IntDenotes (S " 12x") n v := by
  rintro ⟨n, v, h⟩
  have h1 := (C18_atoi_first_iff _ _ _ _).mpr h
  have h2 : atoiFirst ⟨.w32, true⟩ (S " 12x") = .ok none := by decide +kernel
  rw [h2] at h1
  cases h1

/-! ### C84 -/

/-- **C84**, exactly: if the text begins with a number (after blanks), `from_chars_first` stores it and returns 1, however many characters it has; if not,
an uninitialized variable is read. -/
theorem C84_first_exact (s : List Nat) :
    (∀ n v, FirstNumber ⟨.w64, true⟩ IntDenotes s n v → fromCharsFirstPtr s = .ok (1, some v)) ∧
    ((¬ ∃ n v, FirstNumber ⟨.w64, true⟩ IntDenotes s n v) → fromCharsFirstPtr s = .ub) := by
  refine ⟨fun n v h => C84_first_value_partial s ((C18_atoi_first_iff _ _ _ _).mpr h), fun h => ?_⟩
  obtain ⟨r, e, hr⟩ := C18_atoi_first ⟨.w64, true⟩ s
  cases r with
  | none => unfold fromCharsFirstPtr; rw [e]; rfl
  | some x => exact absurd ⟨x.1, x.2, hr _ _ rfl⟩ h

example : fromCharsFirstPtr (S "  -3,") = .ok (1, some (-3)) ∧ fromCharsFirstPtr (S "  ,3") = .ub := by decide +kernel

/-! ### C85 -/

/-- **C85**, exactly: the value is that at the next aligned position; the returned size is right only if gap and value are one character together; without
enough characters the error callback is called. -/
theorem C85_exact (addr al d : Nat) (ha : 0 < al) (hd : NextAligned addr al d) (n : Nat) (buf : List Nat) :
    (buf.length < d + n → fromCharsFirstRaw addr al n buf = .abort) ∧
    (d + n ≤ buf.length → ∃ k, fromCharsFirstRaw addr al n buf = .ok (k, (buf.drop d).take n) ∧ (k = d + n ↔ d + n = 1)) := by
  unfold fromCharsFirstRaw
  rw [C55_read addr al d ha hd]
  refine ⟨fun h => ?_, fun h => ?_⟩
  · rw [if_neg (by omega)]; rfl
  · rw [if_pos h]; exact ⟨1, rfl, by omega⟩

example : fromCharsFirstRaw 1003 1 1 [7, 8] = .ok (1, [7]) ∧ fromCharsFirstRaw 1003 2 1 [7, 8] = .ok (1, [8]) := by decide +kernel

end C4
