import Verif.RngSeed
import Verif.Props.XorshiftPeriod
/-
Property C143: seeding, discarding and comparing of random generators.
-/
namespace C4

theorem res_bind_ok {x : Res α} {f : α → Res β} {b : β} (h : (x >>= f) = .ok b) : ∃ a, x = .ok a ∧ f a = .ok b := by
  cases x with
  | ok a => exact ⟨a, rfl, h⟩
  | _ => cases h

/-- What a user does with a generator before seeding it. -/
inductive RngUse
  | draw (n : Nat)
  | discard (n : Nat)
  | seed (s : Nat)

def RngUse.run (g : σ → Res (σ × Nat)) (seed : σ → Nat → σ) : List RngUse → σ → Res σ
  | [], s => .ok s
  | .draw n :: us, s => do let (s, _) ← rngDraw g n s; run g seed us s
  | .discard n :: us, s => do let s ← rngDiscard g n s; run g seed us s
  | .seed x :: us, s => run g seed us (seed s x)

/-- **C143**: after discarding `n` numbers, the following `m` are those that come after the first `n`, and the state is the same; this
holds of all generators. -/
theorem C143_discard (g : σ → Res (σ × Nat)) (n m : Nat) (s : σ) :
    (do let s ← rngDiscard g n s; rngDraw g m s) = (do let (s, rs) ← rngDraw g (n + m) s; Res.ok (s, rs.drop n)) := by
  induction n generalizing s with
  | zero =>
    rw [Nat.zero_add, rngDiscard, Res.ok_bind]
    cases rngDraw g m s <;> rfl
  | succ n ih =>
    rw [Nat.succ_add, rngDiscard, rngDraw]
    cases g s with
    | ok p =>
      simp only [Res.ok_bind]
      rw [ih]
      cases rngDraw g (n + m) p.1 <;> rfl
    | _ => rfl

/-- **C143** for splitmix and xorshift: whatever was done with a generator before, after `seed(s)` it gives the numbers of every other one seeded
or (splitmix) constructed with `s`. -/
theorem C143_seed (us : List RngUse) (g s n : Nat) :
    (∃ g', RngUse.run splitmixStep splitmixSeed us g = .ok g' ∧
      rngDraw splitmixStep n (splitmixSeed g' s) = rngDraw splitmixStep n (splitmixCtor s)) ∧
    (∃ g', RngUse.run xorshiftStep xorshiftSeed us g = .ok g' ∧
      rngDraw xorshiftStep n (xorshiftSeed g' s) = rngDraw xorshiftStep n (xorshiftSeed xorshiftDefault s)) := by
  have tot : ∀ (st : Nat → Nat × Nat) (seed : Nat → Nat → Nat) (us : List RngUse) (g : Nat),
      ∃ g', RngUse.run (fun x => .ok (st x)) seed us g = .ok g' := by
    intro st seed us
    have hd : ∀ n s, ∃ r, rngDraw (fun x => .ok (st x)) n s = .ok r := by
      intro n
      induction n with
      | zero => exact fun s => ⟨_, rfl⟩
      | succ n ih =>
        intro s
        obtain ⟨r, e⟩ := ih (st s).1
        exact ⟨(r.1, (st s).2 :: r.2), by rw [rngDraw, Res.ok_bind]; simp only []; rw [e]; rfl⟩
    have hk : ∀ n s, ∃ r, rngDiscard (fun x => .ok (st x)) n s = .ok r := by
      intro n
      induction n with
      | zero => exact fun s => ⟨_, rfl⟩
      | succ n ih =>
        intro s
        obtain ⟨r, e⟩ := ih (st s).1
        exact ⟨r, by rw [rngDiscard, Res.ok_bind]; exact e⟩
    induction us with
    | nil => exact fun g => ⟨g, rfl⟩
    | cons u us ih =>
      intro g
      cases u with
      | draw n =>
        obtain ⟨r, e⟩ := hd n g
        obtain ⟨g', e'⟩ := ih r.1
        exact ⟨g', by rw [RngUse.run, e, Res.ok_bind]; exact e'⟩
      | discard n =>
        obtain ⟨r, e⟩ := hk n g
        obtain ⟨g', e'⟩ := ih r
        exact ⟨g', by rw [RngUse.run, e, Res.ok_bind]; exact e'⟩
      | seed x =>
        obtain ⟨g', e'⟩ := ih (seed g x)
        exact ⟨g', by rw [RngUse.run]; exact e'⟩
  obtain ⟨a, ha⟩ := tot splitmix splitmixSeed us g
  obtain ⟨b, hb⟩ := tot xorshift xorshiftSeed us g
  exact ⟨⟨a, ha, rfl⟩, ⟨b, hb, rfl⟩⟩

example : rngDraw splitmixStep 2 (splitmixSeed 5 splitmixDefault) ≠ rngDraw splitmixStep 2 (splitmixSeed 5 2) := by decide +kernel

/-- The first result without a seed: 32 bits of the number 0x910A2DEC89025CC1 that is published for the seed 1. -/
example : rngDraw splitmixStep 1 splitmixDefault = .ok (0x9E3779B97F4A7C16, [0x910A2DEC89025CC1 / 2 ^ 31 % 2 ^ 32]) := by decide +kernel

/-- **C143 is false** for pcg: `seed(s)` keeps the increment, so the numbers depend on how the generator was constructed, and are not those of
`pcg(s)`. -/
theorem C143_refuted_seed :
    rngDraw Pcg.step 2 (Pcg.default.seed 1) = .ok (⟨13423949168006059075, 15726070495360670683⟩, [0, 1967657134]) ∧
    rngDraw Pcg.step 2 (Pcg.ctor 1) = .ok (⟨1802426098294369349, 2⟩, [0, 3837872008]) := by decide +kernel

/-- **C143** for pcg, the part that holds: two generators with the same increment give the same numbers after the same seed; seeding does not
change the increment. -/
theorem C143_pcg_partial (g h : Pcg) (s n : Nat) (e : g.inc = h.inc) :
    rngDraw Pcg.step n (g.seed s) = rngDraw Pcg.step n (h.seed s) ∧ (g.seed s).inc = g.inc := by
  obtain ⟨a, i⟩ := g
  obtain ⟨b, j⟩ := h
  cases e
  exact ⟨rfl, rfl⟩

/-- **C143 is false**: seeds from the random device never have the highest bit, and different results of the device give the same seed. -/
theorem C143_refuted_device : (∀ a b, a < 2 ^ 32 → b < 2 ^ 32 → rdSeed a b < 2 ^ 63) ∧ rdSeed 1 0 = rdSeed 0 (2 ^ 31) ∧
    rdSeed 1 0 = rdSeed 1 (2 ^ 31) := by
  refine ⟨fun a b ha hb => ?_, by decide, by decide⟩
  unfold rdSeed
  have h1 : a <<< 31 < 2 ^ 63 := by rw [Nat.shiftLeft_eq]; omega
  rw [Nat.mod_eq_of_lt (by omega)]
  exact Nat.or_lt_two_pow h1 (by omega)

/-- **C143** and C101: whatever the random device gives, the increment is odd, so that the generator goes through all of its states. -/
theorem C143_device_partial {a b c d : Nat} {g : Pcg} (h : Pcg.seedRd a b c d = .ok g) (n : Nat) :
    iter (pcgNext g.inc) n g.state = g.state ↔ 2 ^ 64 ∣ n := by
  have hstep : ∀ {x y : Pcg} {r : Nat}, x.step = .ok (y, r) → y.inc = x.inc ∧ y.state < 2 ^ 64 := by
    intro x y r e
    unfold Pcg.step at e
    cases hp : pcg x.state x.inc with
    | ok p =>
      rw [hp, Res.ok_bind] at e
      cases e
      refine ⟨rfl, ?_⟩
      unfold pcg at hp
      obtain ⟨u, _, hp⟩ := res_bind_ok hp
      obtain ⟨v, _, hp⟩ := res_bind_ok hp
      cases hp
      exact Nat.mod_lt _ (by decide)
    | _ => rw [hp] at e; cases e
  unfold Pcg.seedRd at h
  obtain ⟨⟨g1, r1⟩, e1, h⟩ := res_bind_ok h
  obtain ⟨⟨g2, r2⟩, e2, h⟩ := res_bind_ok h
  cases h
  have h1 := (hstep e1).1
  have h2 := hstep e2
  refine C101_period_partial ?_ h2.2 n
  rw [h2.1]
  show g1.inc % 2 = 1
  rw [h1]
  show (((rdSeed c d) <<< 1) % 2 ^ 64 ||| 1) % 2 = 1
  rw [Nat.or_mod_two_eq_one]
  exact .inr rfl

example : ∃ g, Pcg.seedRd 1 2 3 4 = .ok g := ⟨_, (rfl : Pcg.seedRd 1 2 3 4 = .ok ⟨_, _⟩)⟩

/-- The first numbers of a default constructed xorshift. -/
example : (rngDraw xorshiftStep 3 xorshiftDefault >>= fun x => Res.ok x.2) = .ok [2951605425, 1375651122, 1995717577] := by decide +kernel

/-- **C143**: equal generators give the same numbers, and are exactly those that are not unequal; generators of the same state and increment are equal, no others. -/
theorem C143_equal (g h : Pcg) (n : Nat) : (g.eq h = true ↔ g.ne h = false) ∧ (g.eq h = true ↔ g = h) ∧
    (g.eq h = true → rngDraw Pcg.step n g = rngDraw Pcg.step n h) := by
  obtain ⟨a, i⟩ := g
  obtain ⟨b, j⟩ := h
  refine ⟨?_, ?_, ?_⟩
  · simp [Pcg.eq, Pcg.ne]
  · simp [Pcg.eq]
  · intro e
    simp only [Pcg.eq, Bool.and_eq_true, beq_iff_eq] at e
    obtain ⟨rfl, rfl⟩ := e
    rfl

example : (⟨5, 3⟩ : Pcg).eq ⟨5, 3⟩ = true ∧ (⟨5, 3⟩ : Pcg).eq ⟨5, 1⟩ = false ∧ (⟨5, 3⟩ : Pcg).ne ⟨4, 3⟩ = true := by decide

end C4
