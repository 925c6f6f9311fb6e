/-
Execution model shared by all modules: outcomes, checked memory accesses on a buffer.

Conventions (see DESIGN.md section 2): a `char` is the natural number of its byte (0..255);
a string view is the list of its characters; a writable buffer is the list of its bytes.
-/

namespace C4

/-- Outcome of running a piece of C++ code.
`ok a`: normal return; `ub`: undefined behaviour (out-of-bounds access, ...);
`abort`: `C4_CHECK`/`C4_ERROR` fired; `loop`: the loop did not finish within the fuel given
(a program that yields `loop` for every fuel does not terminate). -/
inductive Res (α : Type u) where
  | ok (a : α)
  | ub
  | abort
  | loop
  deriving Repr, DecidableEq

namespace Res

def bind {α : Type u} {β : Type v} (x : Res α) (f : α → Res β) : Res β :=
  match x with
  | ok a => f a
  | ub => ub
  | abort => abort
  | loop => loop

instance : Monad Res where
  pure := ok
  bind := bind

@[simp] theorem pure_eq (a : α) : (pure a : Res α) = ok a := rfl
@[simp] theorem ok_bind (a : α) (f : α → Res β) : (ok a >>= f) = f a := rfl
@[simp] theorem ub_bind (f : α → Res β) : ((ub : Res α) >>= f) = ub := rfl
@[simp] theorem abort_bind (f : α → Res β) : ((abort : Res α) >>= f) = abort := rfl
@[simp] theorem loop_bind (f : α → Res β) : ((loop : Res α) >>= f) = loop := rfl
@[simp] theorem map_ok (f : α → β) (a : α) : (f <$> (ok a : Res α)) = ok (f a) := rfl

theorem bind_assoc (x : Res α) (f : α → Res β) (g : β → Res γ) :
    (x >>= f) >>= g = x >>= fun a => f a >>= g := by
  cases x <;> rfl

instance : LawfulMonad Res := LawfulMonad.mk'
  (id_map := by intro _ x; cases x <;> rfl)
  (pure_bind := by intros; rfl)
  (bind_assoc := by intro _ _ _ x; cases x <;> (intros; rfl))

end Res

/-- Text of a string literal as bytes (used in tables and examples). -/
def S (s : String) : List Nat := s.toList.map Char.toNat

/-- A checked read `s.str[i]`; out of range is undefined behaviour. -/
def rd (s : List α) (i : Nat) : Res α :=
  match s[i]? with
  | some c => .ok c
  | none => .ub

/-- A checked write `buf.str[i] = c`; out of range is undefined behaviour. -/
def wr (buf : List α) (i : Nat) (c : α) : Res (List α) :=
  if i < buf.length then .ok (buf.set i c) else .ub

/-- `memcpy(buf + pos, src, src.length)` where `src` lives outside `buf`. -/
def memcpyTo (buf : List α) (pos : Nat) (src : List α) : Res (List α) :=
  if pos + src.length ≤ buf.length then
    .ok (buf.take pos ++ src ++ buf.drop (pos + src.length))
  else if src.length = 0 then .ok buf
  else .ub

/-- `memmove(buf + dst, buf + src, n)` inside one buffer (overlap allowed). -/
def memmove (buf : List α) (dst src n : Nat) : Res (List α) :=
  if src + n ≤ buf.length then memcpyTo buf dst ((buf.drop src).take n) else .ub

/-- `memset(buf + pos, c, n)`. -/
def memset (buf : List α) (pos : Nat) (c : α) (n : Nat) : Res (List α) :=
  memcpyTo buf pos (List.replicate n c)

/-- Pre-decrement of a 32-bit `unsigned`: `--d` wraps at zero. -/
def dec32 (d : Nat) : Nat := if d = 0 then 2^32 - 1 else d - 1

@[simp] theorem dec32_succ (d : Nat) : dec32 (d+1) = d := by simp [dec32]

theorem rd_ok {s : List α} {i : Nat} (h : i < s.length) : rd s i = .ok s[i] := by
  simp [rd, h]

theorem rd_some {s : List α} {i : Nat} {c : α} (h : s[i]? = some c) : rd s i = .ok c := by
  simp [rd, h]

theorem rd_eq_ok_iff {s : List α} {i : Nat} {c : α} : rd s i = .ok c ↔ s[i]? = some c := by
  unfold rd; cases s[i]? <;> simp

theorem rd_ub {s : List α} {i : Nat} (h : s.length ≤ i) : rd s i = .ub := by
  simp [rd, h]

theorem wr_ok {buf : List α} {i : Nat} {c : α} (h : i < buf.length) :
    wr buf i c = .ok (buf.set i c) := by simp [wr, h]

theorem wr_append_left {pre post : List α} {x c : α} :
    wr (pre ++ x :: post) pre.length c = .ok (pre ++ c :: post) := by
  simp [wr]

theorem memcpyTo_ok {buf : List α} {pos : Nat} {src : List α} (h : pos + src.length ≤ buf.length) :
    memcpyTo buf pos src = .ok (buf.take pos ++ src ++ buf.drop (pos + src.length)) := by
  simp [memcpyTo, h]

theorem memcpyTo_length {buf buf' : List α} {pos : Nat} {src : List α}
    (h : memcpyTo buf pos src = .ok buf') : buf'.length = buf.length := by
  unfold memcpyTo at h
  split at h
  · injection h with h; subst h; simp; omega
  · split at h
    · injection h with h; subst h; rfl
    · cases h

/-- Run a writer on the sub-view `buf.sub(pos)` of a buffer: the bytes before `pos` are out of its
reach.  (`basic_substring::sub`, /repo/src/c4/substr.hpp:322-336; `pos ≤ len` is asserted there and
required here.) -/
def onSub (buf : List α) (pos : Nat) (f : List α → Res (β × List α)) : Res (β × List α) :=
  if pos ≤ buf.length then do
    let (r, b) ← f (buf.drop pos)
    .ok (r, buf.take pos ++ b)
  else .ub

end C4
