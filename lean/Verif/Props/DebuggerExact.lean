import Verif.Props.Error
import Verif.Props.RngSeed
/-
Property C127 for the contents of the status file left out by `C127_partial`, and C143: the seeds from a random device.
-/
namespace C4
open Spec Err

theorem prefix_zeros {key l : List Nat} {k : Nat} (h0 : 0 ∉ key) (h : key <+: l ++ List.replicate k 0) : key <+: l := by
  by_cases hl : key.length ≤ l.length
  · exact List.prefix_of_prefix_length_le h (List.prefix_append _ _) hl
  · exfalso
    obtain ⟨t, rfl⟩ := List.prefix_of_prefix_length_le (List.prefix_append l (List.replicate k 0)) h (by omega)
    have ht : t <+: List.replicate k 0 := (List.prefix_append_right_inj l).mp h
    cases t with
    | nil => simp at hl
    | cons c t =>
      have : c ∈ List.replicate k 0 := ht.subset (.head _)
      rw [List.mem_replicate] at this
      exact h0 (by rw [this.2]; simp)

theorem strstr_absent {key : List Nat} (hk : key ≠ []) (h0 : 0 ∉ key) (k : Nat) : ∀ (bs : List Nat) (pos : Nat),
    (∀ i, 0 ∉ bs.take i → ¬ key <+: bs.drop i) →
    strstr key (bs ++ List.replicate k 0) pos = if 0 ∈ bs ∨ 0 < k then .ok none else .ub := by
  intro bs
  induction bs with
  | nil =>
    intro pos _
    cases k with
    | zero => simp [strstr]
    | succ k =>
      have : ¬ key <+: 0 :: List.replicate k 0 := by
        intro h
        have := prefix_zeros (l := []) (k := k + 1) h0 h
        exact hk (List.prefix_nil.mp this)
      simp [List.replicate_succ, strstr, this]
  | cons c bs ih =>
    intro pos h
    rw [List.cons_append, strstr, if_neg]
    · by_cases hc : c = 0
      · subst hc; simp
      · rw [if_neg hc, ih (pos + 1)]
        · simp [Ne.symm hc]
        · intro i hi hp
          refine h (i + 1) ?_ hp
          rw [List.take_succ_cons, List.mem_cons]
          rintro (g | g)
          · exact hc g.symm
          · exact hi g
    · intro hp
      exact h 0 (by simp) (prefix_zeros (l := c :: bs) h0 hp)

/-- **C127**, the other contents: if what is read (at most 1024 characters) has no "TracerPid:" before the first zero, the first call says that there is no
debugger, unless all 1024 characters were read and none of them is a zero; then the array is read beyond its end. -/
theorem C127_absent_exact (bs : List Nat) (hl : bs.length ≤ 1024) (h : ∀ i, 0 ∉ bs.take i → ¬ tracerKey <+: bs.drop i) :
    (0 ∈ bs ∨ bs.length < 1024 → isDebuggerAttached (.bytes bs) ⟨true, false⟩ = .ok (false, ⟨false, false⟩)) ∧
    (0 ∉ bs → bs.length = 1024 → isDebuggerAttached (.bytes bs) ⟨true, false⟩ = .ub) := by
  have hs := strstr_absent (key := tracerKey) (by decide) (by decide) (1024 - bs.length) bs 0 h
  unfold isDebuggerAttached
  refine ⟨fun hc => ?_, fun h0 hlen => ?_⟩
  · rw [if_pos rfl]
    dsimp only
    split
    · rw [show S "TracerPid:" = tracerKey from rfl, hs, if_pos (by rcases hc with hc | hc; exacts [.inl hc, .inr (by omega)]), Res.ok_bind]
    · rfl
  · rw [if_pos rfl]
    dsimp only
    rw [if_pos (by omega), show S "TracerPid:" = tracerKey from rfl, hs, if_neg (by simp [h0]; omega)]
    rfl

/-- **C127**: without the file there is no debugger, and whatever the first call said (or any other; `hd` holds at the beginning and after every call), later
calls say too. -/
theorem C127_later (status : Status) (d : Dbg) (hd : d.first = true → d.result = false) :
    (∀ r d', isDebuggerAttached status d = .ok (r, d') → (d'.first = true → d'.result = false) ∧
      ∀ other, isDebuggerAttached other d' = .ok (r, d')) ∧
    isDebuggerAttached .closed ⟨true, false⟩ = .ok (false, ⟨false, false⟩) ∧
    isDebuggerAttached .failed ⟨true, false⟩ = .ok (false, ⟨false, false⟩) := by
  refine ⟨fun r d' h => ?_, rfl, rfl⟩
  have key : d'.first = false ∧ r = d'.result := by
    unfold isDebuggerAttached at h
    by_cases hf : d.first = true
    · rw [if_pos hf] at h
      cases status with
      | closed => cases h; exact ⟨rfl, (hd hf).symm⟩
      | failed => cases h; exact ⟨rfl, rfl⟩
      | bytes bs =>
        dsimp only at h
        split at h
        · cases hs : strstr (S "TracerPid:") (bs ++ List.replicate (1024 - bs.length) 0) 0 with
          | ok o =>
            rw [hs, Res.ok_bind] at h
            cases o with
            | none => cases h; exact ⟨rfl, rfl⟩
            | some pos =>
              dsimp only at h
              cases ha : libAtoi ((bs ++ List.replicate (1024 - bs.length) 0).drop (pos + (S "TracerPid:").length)) with
              | ok pid => rw [ha, Res.ok_bind] at h; cases h; exact ⟨rfl, rfl⟩
              | ub => rw [ha] at h; cases h
              | abort => rw [ha] at h; cases h
              | loop => rw [ha] at h; cases h
          | ub => rw [hs] at h; cases h
          | abort => rw [hs] at h; cases h
          | loop => rw [hs] at h; cases h
        · cases h; exact ⟨rfl, rfl⟩
    · rw [if_neg hf] at h
      cases h
      exact ⟨by simpa using hf, rfl⟩
  refine ⟨fun g => (by rw [key.1] at g; cases g), fun other => ?_⟩
  unfold isDebuggerAttached
  rw [if_neg (by rw [key.1]; decide), key.2]

example : (∀ i, 0 ∉ (S "Name:\tx\n").take i → ¬ tracerKey <+: (S "Name:\tx\n").drop i) := by
  intro i _ h
  have := h.length_le
  rw [List.length_drop] at this
  have h1 : (S "Name:\tx\n").length = 8 := by decide
  have h2 : tracerKey.length = 10 := by decide
  omega

/-- **C143**, exactly: the seeds that a random device can give are all numbers below 2^63. -/
theorem C143_device_exact (v : Nat) : (∃ a b, a < 2 ^ 32 ∧ b < 2 ^ 32 ∧ rdSeed a b = v) ↔ v < 2 ^ 63 := by
  constructor
  · rintro ⟨a, b, ha, hb, rfl⟩
    exact C143_refuted_device.1 a b ha hb
  · intro h
    refine ⟨v / 2 ^ 31, v % 2 ^ 31, by omega, by omega, ?_⟩
    unfold rdSeed
    rw [Nat.mod_eq_of_lt (by rw [Nat.shiftLeft_eq]; omega), ← Nat.shiftLeft_add_eq_or_of_lt (by omega), Nat.shiftLeft_eq]
    omega

end C4
