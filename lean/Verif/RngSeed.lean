import Verif.Small
/-
The rest of ext/rng/rng.hpp: construction, seeding, discarding and comparing of generators.
-/
namespace C4

/-- The loop of `discard(n)` (/repo/src/c4/ext/rng/rng.hpp:54-58, 108-112, 174-178), for a generator with the step `g`: the results are dropped. -/
def rngDiscard (g : σ → Res (σ × Nat)) : Nat → σ → Res σ
  | 0, s => .ok s
  | n + 1, s => do
    let (s, _) ← g s
    rngDiscard g n s

/-- `n` calls of `operator()` by the user: the final state and the numbers. -/
def rngDraw (g : σ → Res (σ × Nat)) : Nat → σ → Res (σ × List Nat)
  | 0, s => .ok (s, [])
  | n + 1, s => do
    let (s, r) ← g s
    let (s, rs) ← rngDraw g n s
    .ok (s, r :: rs)

/-- `uint64_t(rd()) << 31 | uint64_t(rd())` (/repo/src/c4/ext/rng/rng.hpp:43, 96, 154, 155), for two results of the random device.
Which of them is drawn first is unspecified. -/
def rdSeed (a b : Nat) : Nat := ((a <<< 31) % 2 ^ 64) ||| b

/-- `splitmix()` (/repo/src/c4/ext/rng/rng.hpp:33). -/
def splitmixDefault : Nat := 1
/-- `splitmix(uint64_t)` (/repo/src/c4/ext/rng/rng.hpp:34). -/
def splitmixCtor (s : Nat) : Nat := s
/-- `splitmix::seed(uint64_t)` (/repo/src/c4/ext/rng/rng.hpp:40). -/
def splitmixSeed (_old s : Nat) : Nat := s
/-- `splitmix::operator()` as a step. -/
def splitmixStep (s : Nat) : Res (Nat × Nat) := .ok (splitmix s)

/-- `xorshift()` (/repo/src/c4/ext/rng/rng.hpp:87). -/
def xorshiftDefault : Nat := 0xc1f651c67c62c6e0
/-- `xorshift::seed(uint64_t)` (/repo/src/c4/ext/rng/rng.hpp:93). -/
def xorshiftSeed (_old s : Nat) : Nat := s
/-- `xorshift::operator()` as a step. -/
def xorshiftStep (s : Nat) : Res (Nat × Nat) := .ok (xorshift s)

/-- A `pcg` object (/repo/src/c4/ext/rng/rng.hpp:181-182). -/
structure Pcg where
  state : Nat
  inc : Nat
  deriving DecidableEq, Repr

/-- `pcg()` (/repo/src/c4/ext/rng/rng.hpp:141-144). -/
def Pcg.default : Pcg := ⟨0x853c49e6748fea9b, 0xda3e39cb94b95bdb⟩
/-- `pcg(uint64_t)` (/repo/src/c4/ext/rng/rng.hpp:145). -/
def Pcg.ctor (s : Nat) : Pcg := ⟨(pcgSeeded s).1, (pcgSeeded s).2⟩
/-- `pcg::seed(uint64_t)` (/repo/src/c4/ext/rng/rng.hpp:151). -/
def Pcg.seed (g : Pcg) (s : Nat) : Pcg := { g with state := s }
/-- `pcg::operator()` as a step. -/
def Pcg.step (g : Pcg) : Res (Pcg × Nat) := do
  let (s, r) ← pcg g.state g.inc
  .ok ({ g with state := s }, r)

/-- `pcg::seed(std::random_device&)` (/repo/src/c4/ext/rng/rng.hpp:152-162) with the four results of the device. -/
def Pcg.seedRd (a b c d : Nat) : Res Pcg := do
  let s0 := rdSeed a b
  let s1 := rdSeed c d
  let g : Pcg := ⟨0, ((s1 <<< 1) % 2 ^ 64) ||| 1⟩
  let (g, _) ← g.step
  let g : Pcg := { g with state := (g.state + s0) % 2 ^ 64 }
  let (g, _) ← g.step
  .ok g

/-- `operator==` and `operator!=` of pcg (/repo/src/c4/ext/rng/rng.hpp:185-194). -/
def Pcg.eq (a b : Pcg) : Bool := a.state == b.state && a.inc == b.inc
def Pcg.ne (a b : Pcg) : Bool := a.state != b.state || a.inc != b.inc

end C4
