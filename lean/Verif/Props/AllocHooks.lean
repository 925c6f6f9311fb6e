import Verif.AllocHooks
import Mathlib.Data.List.Nodup
import Verif.Props.Resources
/-
Property C168: the replaceable allocation functions.
-/
namespace C4
open Res

/-! ### Specification -/

/-- The blocks (heap, address) that are out when the heaps received these calls, beginning with `l`; `none` if a heap is given back, or told to
move, something that it did not hand out or that was given back before. -/
def Spec.replay : List HookCall → List (Nat × Nat) → Option (List (Nat × Nat))
  | [], l => some l
  | .got h p _ _ :: r, l => replay r (if p = 0 then l else (h, p) :: l)
  | .freed h p :: r, l => if p = 0 then replay r l else if (h, p) ∈ l then replay r (l.erase (h, p)) else none
  | .moved h p _ q _ _ :: r, l => if (h, p) ∈ l then replay r (if q = 0 then l else (h, q) :: l.erase (h, p)) else none

open Spec

/-- The states reached by a program that holds the blocks `m` (addresses and contents), sets functions that belong together (the default `arealloc` belongs
to all), only while it holds no block, passes the size it asked for to `arealloc`, and whose heaps hand out no address twice. -/
inductive HookHist (chk : Bool) : Hooks → List (Nat × List Nat) → Prop where
  | start : HookHist chk {} []
  | set {s} (h : HookHist chk s []) (n : Nat) (r : ReallocFn) (hr : r = .dflt ∨ r = .user n) :
      HookHist chk (((s.setAalloc (some n)).setAfree (some n)).setArealloc (some r)) []
  | alloc {s m} (h : HookHist chk s m) (e : HookEnv) (sz al p : Nat) (s' : Hooks) (d : List Nat) (hp : p ≠ 0) (hfr : p ∉ m.map Prod.fst)
      (he : hookAalloc chk e s sz al = .ok (p, s')) (hd : hookRead s' p = some d) : HookHist chk s' ((p, d) :: m)
  | failed {s m} (h : HookHist chk s m) (e : HookEnv) (sz al : Nat) (s' : Hooks) (he : hookAalloc chk e s sz al = .ok (0, s')) : HookHist chk s' m
  | store {s m} (h : HookHist chk s m) (p i v : Nat) :
      HookHist chk (hookStore s p i v) (m.map fun x => if x.1 = p then (x.1, x.2.set i v) else x)
  | free {s m} (h : HookHist chk s m) (p : Nat) (d : List Nat) (hm : (p, d) ∈ m) (s' : Hooks) (he : hookAfree chk s p = .ok s') :
      HookHist chk s' (m.erase (p, d))
  | freeNull {s m} (h : HookHist chk s m) (s' : Hooks) (he : hookAfree chk s 0 = .ok s') : HookHist chk s' m
  | realloc {s m} (h : HookHist chk s m) (e : HookEnv) (p : Nat) (d : List Nat) (hm : (p, d) ∈ m) (new al q : Nat) (s' : Hooks) (d' : List Nat)
      (he : hookArealloc chk e s p d.length new al = .ok (q, s')) (hq : q ≠ 0) (hfr : q ∉ (m.erase (p, d)).map Prod.fst)
      (hfp : s.arealloc = some .dflt → q ≠ p) (hd : hookRead s' q = some d') : HookHist chk s' ((q, d') :: m.erase (p, d))

/-! ### Lemmas -/

theorem replay_append (a b : List HookCall) : ∀ l, replay (a ++ b) l = (replay a l).bind (replay b) := by
  induction a with
  | nil => intro l; rfl
  | cons c a ih =>
    intro l
    cases c with
    | got h p sz al => simp only [List.cons_append, replay, ih]
    | freed h p =>
      simp only [List.cons_append, replay]
      split
      · exact ih _
      · split
        · exact ih _
        · rfl
    | moved h p o q n al =>
      simp only [List.cons_append, replay]
      split
      · exact ih _
      · rfl

/-- The blocks of heap `n` with these addresses and contents. -/
def ofHeap (n : Nat) (m : List (Nat × List Nat)) : List HookBlk := m.map fun x => ⟨x.1, n, x.2⟩

theorem ofHeap_erase (n : Nat) (m : List (Nat × List Nat)) (x : Nat × List Nat) : (ofHeap n m).erase ⟨x.1, n, x.2⟩ = ofHeap n (m.erase x) := by
  induction m with
  | nil => rfl
  | cons y m ih =>
    by_cases hy : y = x
    · subst hy
      rw [List.erase_cons_head, ofHeap, List.map_cons, List.erase_cons_head]
      rfl
    · rw [List.erase_cons_tail (by simpa using hy), ofHeap, List.map_cons, List.erase_cons_tail]
      · show _ :: (ofHeap n m).erase _ = _
        rw [ih]
        rfl
      · intro h
        simp only [beq_iff_eq, HookBlk.mk.injEq, true_and] at h
        exact hy (Prod.ext h.1 h.2)

theorem find_key {m : List (Nat × List Nat)} {p : Nat} {d : List Nat} (hm : (p, d) ∈ m) (hn : (m.map Prod.fst).Nodup) (n : Nat) :
    (ofHeap n m).find? (fun b => b.addr == p) = some ⟨p, n, d⟩ := by
  induction m with
  | nil => cases hm
  | cons y m ih =>
    rw [List.map_cons, List.nodup_cons] at hn
    rw [ofHeap, List.map_cons]
    rcases List.mem_cons.1 hm with rfl | hm
    · exact List.find?_cons_of_pos (by simp)
    · rw [List.find?_cons_of_neg]
      · exact ih hm hn.2
      · intro h
        simp only [beq_iff_eq] at h
        exact hn.1 (h ▸ List.mem_map_of_mem (f := Prod.fst) hm)

theorem find_heap (m : List (Nat × List Nat)) (p n : Nat) :
    (ofHeap n m).find? (fun b => b.addr == p && b.heap == n) = (ofHeap n m).find? (fun b => b.addr == p) := by
  induction m with
  | nil => rfl
  | cons y m ih =>
    rw [ofHeap, List.map_cons, List.find?_cons, List.find?_cons]
    simp only [beq_self_eq_true, Bool.and_true]
    split
    · rfl
    · exact ih

theorem keys_erase {m : List (Nat × List Nat)} {p : Nat} {d : List Nat} (hm : (p, d) ∈ m) (hn : (m.map Prod.fst).Nodup) (n : Nat) :
    (m.map fun x => (n, x.1)).erase (n, p) = (m.erase (p, d)).map fun x => (n, x.1) := by
  induction m with
  | nil => cases hm
  | cons y m ih =>
    rw [List.map_cons, List.nodup_cons] at hn
    rcases List.mem_cons.1 hm with rfl | hm
    · rw [List.map_cons, List.erase_cons_head, List.erase_cons_head]
    · have hy : y.1 ≠ p := fun h => hn.1 (h ▸ List.mem_map_of_mem (f := Prod.fst) hm)
      rw [List.map_cons, List.erase_cons_tail (by simpa using hy), List.erase_cons_tail, List.map_cons, ih hm hn.2]
      intro h
      rw [beq_iff_eq] at h
      exact hy (by rw [h])

theorem nodup_erase {m : List (Nat × List Nat)} (hn : (m.map Prod.fst).Nodup) (x : Nat × List Nat) : ((m.erase x).map Prod.fst).Nodup :=
  hn.sublist (List.erase_sublist.map _)

/-- What holds in the states reached. -/
structure HookInv (s : Hooks) (m : List (Nat × List Nat)) (n : Nat) : Prop where
  aalloc : s.aalloc = some n
  afree : s.afree = some n
  arealloc : s.arealloc = some .dflt ∨ s.arealloc = some (.user n)
  live : s.live = ofHeap n m
  nodup : (m.map Prod.fst).Nodup
  nonnull : 0 ∉ m.map Prod.fst
  log : replay s.log [] = some (m.map fun x => (n, x.1))

theorem hookAalloc_eq {s : Hooks} {m : List (Nat × List Nat)} {n : Nat} (h : HookInv s m n) (chk : Bool) (e : HookEnv) (sz al : Nat) :
    hookAalloc chk e s sz al = (e.answer n sz al).bind fun p =>
      .ok (p, { s with live := if p = 0 then ofHeap n m else ofHeap n ((p, e.fresh 0 sz) :: m), log := s.log ++ [.got n p sz al] }) := by
  unfold hookAalloc
  rw [h.aalloc, h.live]
  rfl

theorem hookAfree_eq {s : Hooks} {m : List (Nat × List Nat)} {n : Nat} (h : HookInv s m n) (chk : Bool) {p : Nat} {d : List Nat} (hm : (p, d) ∈ m) :
    hookAfree chk s p = .ok { s with live := ofHeap n (m.erase (p, d)), log := s.log ++ [.freed n p] } := by
  have hp : p ≠ 0 := fun h0 => h.nonnull (h0 ▸ List.mem_map_of_mem (f := Prod.fst) hm)
  unfold hookAfree
  rw [h.afree, h.live]
  simp only [if_neg hp]
  rw [find_heap, find_key hm h.nodup]
  simp only [ofHeap_erase n m (p, d)]

theorem fresh_length (e : HookEnv) (i n : Nat) : (e.fresh i n).length = n - i := by
  simp [HookEnv.fresh]

/-- The default `arealloc`, when the heap hands out `q`. -/
theorem hookAreallocImpl_eq {s : Hooks} {m : List (Nat × List Nat)} {n : Nat} (h : HookInv s m n) (chk : Bool) (e : HookEnv) {p : Nat} {d : List Nat} (hm : (p, d) ∈ m)
    (new al q : Nat) (hq : q ≠ 0) (hfr : q ∉ m.map Prod.fst) (ha : e.answer n new al = .ok q) :
    hookAreallocImpl chk e s p d.length new al = .ok (q, { s with
      live := ofHeap n ((q, d.take new ++ (e.fresh 0 new).drop (min new d.length)) :: m.erase (p, d)), log := s.log ++ [.got n q new al, .freed n p] }) := by
  have hp : p ≠ 0 := fun h0 => h.nonnull (h0 ▸ List.mem_map_of_mem (f := Prod.fst) hm)
  have hqp : q ≠ p := fun h0 => hfr (h0 ▸ List.mem_map_of_mem (f := Prod.fst) hm)
  have hmn : (if new < d.length then new else d.length) = min new d.length := by split <;> omega
  unfold hookAreallocImpl
  rw [hookAalloc_eq h, ha]
  simp only [Res.bind, hp, hq, or_self, if_false, hmn]
  have hn1 : (((q, e.fresh 0 new) :: m).map Prod.fst).Nodup := by
    rw [List.map_cons, List.nodup_cons]; exact ⟨hfr, h.nodup⟩
  rw [find_key (List.mem_cons_of_mem _ hm) hn1, find_key List.mem_cons_self hn1]
  simp only [fresh_length]
  rw [if_neg (by omega)]
  rw [ofHeap_erase n ((q, e.fresh 0 new) :: m) (q, e.fresh 0 new), List.erase_cons_head]
  have h2 : HookInv { s with live := ofHeap n ((q, d.take (min new d.length) ++ (e.fresh 0 new).drop (min new d.length)) :: m), log := s.log ++ [.got n q new al] }
      ((q, d.take (min new d.length) ++ (e.fresh 0 new).drop (min new d.length)) :: m) n := by
    refine ⟨h.aalloc, h.afree, h.arealloc, rfl, ?_, ?_, ?_⟩
    · rw [List.map_cons, List.nodup_cons]; exact ⟨hfr, h.nodup⟩
    · rw [List.map_cons, List.mem_cons]; rintro (h0 | h0)
      · exact hq h0.symm
      · exact h.nonnull h0
    · show replay (s.log ++ [.got n q new al]) [] = _
      rw [replay_append, h.log]
      simp only [Option.bind_some, replay, if_neg hq, List.map_cons]
  have h3 := hookAfree_eq h2 chk (p := p) (d := d) (List.mem_cons_of_mem _ hm)
  rw [List.erase_cons_tail (by simpa using fun h0 => absurd h0 hqp)] at h3
  have hcons : (⟨q, n, d.take (min new d.length) ++ (e.fresh 0 new).drop (min new d.length)⟩ : HookBlk) :: ofHeap n m
      = ofHeap n ((q, d.take (min new d.length) ++ (e.fresh 0 new).drop (min new d.length)) :: m) := rfl
  rw [hcons, h3]
  simp only [List.append_assoc, List.cons_append, List.nil_append]
  have : d.take (min new d.length) = d.take new := by
    rcases Nat.le_total new d.length with hl | hl
    · rw [Nat.min_eq_left hl]
    · rw [Nat.min_eq_right hl, List.take_length, List.take_of_length_le hl]
  rw [this]

/-- A function of the user for `arealloc`, when it answers `q`. -/
theorem hookAreallocUser_eq {s : Hooks} {m : List (Nat × List Nat)} {n : Nat} (h : HookInv s m n) (hr : s.arealloc = some (.user n)) (chk : Bool) (e : HookEnv)
    {p : Nat} {d : List Nat} (hm : (p, d) ∈ m) (new al q : Nat) (hq : q ≠ 0) (ha : e.answer n new al = .ok q) :
    hookArealloc chk e s p d.length new al = .ok (q, { s with
      live := ofHeap n ((q, d.take new ++ e.fresh d.length new) :: m.erase (p, d)), log := s.log ++ [.moved n p d.length q new al] }) := by
  unfold hookArealloc
  rw [hr]
  simp only
  rw [h.live, find_heap, find_key hm h.nodup, ha]
  simp only [Res.bind, if_neg hq, ofHeap_erase n m (p, d)]
  rfl

theorem hookRead_of {s : Hooks} {m : List (Nat × List Nat)} {n : Nat} (hl : s.live = ofHeap n m) (hn : (m.map Prod.fst).Nodup) {p : Nat} {d : List Nat}
    (hm : (p, d) ∈ m) : hookRead s p = some d := by
  unfold hookRead
  rw [hl, find_key hm hn]
  rfl

theorem mem_erase_ne {m : List (Nat × List Nat)} (hn : (m.map Prod.fst).Nodup) {p : Nat} {d : List Nat} (hm : (p, d) ∈ m) : p ∉ (m.erase (p, d)).map Prod.fst := by
  induction m with
  | nil => cases hm
  | cons y m ih =>
    rw [List.map_cons, List.nodup_cons] at hn
    rcases List.mem_cons.1 hm with rfl | hm
    · rw [List.erase_cons_head]; exact hn.1
    · have hy : y.1 ≠ p := fun h => hn.1 (h ▸ List.mem_map_of_mem (f := Prod.fst) hm)
      rw [List.erase_cons_tail, List.map_cons, List.mem_cons]
      · rintro (h | h)
        · exact hy h.symm
        · exact ih hn.2 hm h
      · intro h
        rw [beq_iff_eq] at h
        exact hy (by rw [h])

theorem mem_keys {m : List (Nat × List Nat)} {p : Nat} {d : List Nat} (hm : (p, d) ∈ m) (n : Nat) : (n, p) ∈ m.map fun x => (n, x.1) :=
  List.mem_map.2 ⟨_, hm, rfl⟩

/-- The invariant after a block was replaced by another. -/
theorem HookInv.replace {s : Hooks} {m : List (Nat × List Nat)} {n : Nat} (h : HookInv s m n) {p : Nat} {d : List Nat} (q : Nat) (d' : List Nat)
    (hq : q ≠ 0) (hfr : q ∉ (m.erase (p, d)).map Prod.fst) (log : List HookCall)
    (hlog : replay log [] = some ((n, q) :: (m.erase (p, d)).map fun x => (n, x.1))) :
    HookInv { s with live := ofHeap n ((q, d') :: m.erase (p, d)), log := log } ((q, d') :: m.erase (p, d)) n := by
  refine ⟨h.aalloc, h.afree, h.arealloc, rfl, ?_, ?_, hlog⟩
  · rw [List.map_cons, List.nodup_cons]; exact ⟨hfr, nodup_erase h.nodup _⟩
  · rw [List.map_cons, List.mem_cons]
    rintro (h0 | h0)
    · exact hq h0.symm
    · exact h.nonnull ((List.erase_sublist.map _).subset h0)

theorem hookArealloc_dflt {s : Hooks} (hr : s.arealloc = some .dflt) (chk : Bool) (e : HookEnv) (p old new al : Nat) :
    hookArealloc chk e s p old new al = hookAreallocImpl chk e s p old new al := by
  simp only [hookArealloc, hr]

theorem hookAfree_null {s : Hooks} {n : Nat} (hf : s.afree = some n) (chk : Bool) : hookAfree chk s 0 = .ok { s with log := s.log ++ [.freed n 0] } := by
  simp only [hookAfree, hf, if_true]

/-- `arealloc` in the states reached, when the heap answers `q`: the new contents, the calls, and the invariant. -/
theorem hookArealloc_step {s : Hooks} {m : List (Nat × List Nat)} {n : Nat} (h : HookInv s m n) (chk : Bool) (e : HookEnv) {p : Nat} {d : List Nat} (hm : (p, d) ∈ m)
    (new al q : Nat) (hq : q ≠ 0) (hfr : q ∉ (m.erase (p, d)).map Prod.fst) (hfp : s.arealloc = some .dflt → q ≠ p) (ha : e.answer n new al = .ok q) :
    ∃ s' d', hookArealloc chk e s p d.length new al = .ok (q, s') ∧ HookInv s' ((q, d') :: m.erase (p, d)) n ∧ d'.length = new
      ∧ d'.take (min d.length new) = d.take (min d.length new)
      ∧ (s'.log = s.log ++ [.got n q new al, .freed n p] ∨ s'.log = s.log ++ [.moved n p d.length q new al]) := by
  have hp : p ≠ 0 := fun h0 => h.nonnull (h0 ▸ List.mem_map_of_mem (f := Prod.fst) hm)
  have key : ∀ t : List Nat, (d.take new ++ t).take (min d.length new) = d.take (min d.length new) := by
    intro t
    rw [List.take_append_of_le_length (by rw [List.length_take]; omega), List.take_take]
    congr 1
    omega
  rcases h.arealloc with hr | hr
  · have hfr' : q ∉ m.map Prod.fst := by
      intro hc
      obtain ⟨⟨q', x⟩, hx, rfl⟩ := List.mem_map.1 hc
      have hne : (q', x) ≠ (p, d) := fun h0 => hfp hr (congrArg Prod.fst h0)
      exact hfr (List.mem_map.2 ⟨_, (List.mem_erase_of_ne hne).2 hx, rfl⟩)
    refine ⟨_, _, (hookArealloc_dflt hr chk e p d.length new al).trans (hookAreallocImpl_eq h chk e hm new al q hq hfr' ha), h.replace q _ hq hfr _ ?_, ?_, key _, Or.inl rfl⟩
    · rw [replay_append, h.log]
      simp only [Option.bind_some, replay, if_neg hq, if_neg hp]
      rw [if_pos (List.mem_cons_of_mem _ (mem_keys hm n)), List.erase_cons_tail, keys_erase hm h.nodup]
      intro h0
      rw [beq_iff_eq] at h0
      exact hfp hr (congrArg Prod.snd h0)
    · rw [List.length_append, List.length_take, List.length_drop, fresh_length]
      omega
  · refine ⟨_, _, hookAreallocUser_eq h hr chk e hm new al q hq ha, h.replace q _ hq hfr _ ?_, ?_, key _, Or.inr rfl⟩
    · rw [replay_append, h.log]
      simp only [Option.bind_some, replay, if_neg hq]
      rw [if_pos (mem_keys hm n), keys_erase hm h.nodup]
    · rw [List.length_append, List.length_take, fresh_length]
      omega

theorem bind_ok {α β : Type} {x : Res α} {f : α → Res β} {b : β} (h : x.bind f = .ok b) : ∃ a, x = .ok a ∧ f a = .ok b := by
  cases x with
  | ok a => exact ⟨a, rfl, h⟩
  | ub => cases h
  | abort => cases h
  | loop => cases h

/-- Whoever returns from `arealloc` with a pointer got it from the heap. -/
theorem hookArealloc_answer {s s' : Hooks} {m : List (Nat × List Nat)} {n : Nat} (h : HookInv s m n) {chk : Bool} {e : HookEnv} {p old new al q : Nat}
    (he : hookArealloc chk e s p old new al = .ok (q, s')) : e.answer n new al = .ok q := by
  unfold hookArealloc at he
  rcases h.arealloc with hr | hr <;> rw [hr] at he <;> simp only at he
  · unfold hookAreallocImpl at he
    rw [hookAalloc_eq h] at he
    obtain ⟨r, h1, h2⟩ := bind_ok he
    obtain ⟨a, h3, h4⟩ := bind_ok h1
    rw [h3]
    cases h4
    simp only at h2
    generalize (if new < old then new else old) = mn at h2
    split at h2
    · cases h2
    · split at h2
      · split at h2
        · cases h2
        · obtain ⟨s2, h5, h6⟩ := bind_ok h2
          cases h6
          rfl
      · cases h2
  · split at he
    · cases he
    · obtain ⟨a, h3, h4⟩ := bind_ok he
      cases h4
      exact h3

theorem hookHist_inv {chk : Bool} {s : Hooks} {m : List (Nat × List Nat)} (h : HookHist chk s m) : ∃ n, HookInv s m n := by
  induction h with
  | start => exact ⟨0, rfl, rfl, Or.inl rfl, rfl, List.nodup_nil, by simp, rfl⟩
  | @set s h n r hr ih =>
    obtain ⟨k, hi⟩ := ih
    exact ⟨n, rfl, rfl, by rcases hr with rfl | rfl <;> simp [Hooks.setArealloc], hi.live, List.nodup_nil, by simp, hi.log⟩
  | @alloc s m h e sz al p s' d hp hfr he hd ih =>
    obtain ⟨n, hi⟩ := ih
    rw [hookAalloc_eq hi] at he
    obtain ⟨a, h3, h4⟩ := bind_ok he
    cases h4
    have hn : (((p, e.fresh 0 sz) :: m).map Prod.fst).Nodup := by rw [List.map_cons, List.nodup_cons]; exact ⟨hfr, hi.nodup⟩
    simp only [if_neg hp] at hd ⊢
    rw [hookRead_of rfl hn List.mem_cons_self] at hd
    cases hd
    refine ⟨n, hi.aalloc, hi.afree, hi.arealloc, rfl, hn, ?_, ?_⟩
    · rw [List.map_cons, List.mem_cons]
      rintro (h0 | h0)
      · exact hp h0.symm
      · exact hi.nonnull h0
    · show replay (s.log ++ _) [] = _
      rw [replay_append, hi.log]
      simp only [Option.bind_some, replay, if_neg hp, List.map_cons]
  | @failed s m h e sz al s' he ih =>
    obtain ⟨n, hi⟩ := ih
    rw [hookAalloc_eq hi] at he
    obtain ⟨a, h3, h4⟩ := bind_ok he
    cases h4
    refine ⟨n, hi.aalloc, hi.afree, hi.arealloc, rfl, hi.nodup, hi.nonnull, ?_⟩
    show replay (s.log ++ _) [] = _
    rw [replay_append, hi.log]
    rfl
  | @store s m h p i v ih =>
    obtain ⟨n, hi⟩ := ih
    have hk : (m.map fun x => if x.1 = p then (x.1, x.2.set i v) else x).map Prod.fst = m.map Prod.fst := by
      rw [List.map_map]
      refine List.map_congr_left fun x _ => ?_
      simp only [Function.comp]
      split <;> rfl
    refine ⟨n, hi.aalloc, hi.afree, hi.arealloc, ?_, hk ▸ hi.nodup, hk ▸ hi.nonnull, ?_⟩
    · show s.live.map _ = _
      rw [hi.live]
      unfold ofHeap
      rw [List.map_map, List.map_map]
      refine List.map_congr_left fun x _ => ?_
      simp only [Function.comp]
      split <;> rfl
    · show replay s.log [] = _
      rw [hi.log, List.map_map]
      refine congrArg some (List.map_congr_left fun x _ => ?_)
      simp only [Function.comp]
      split <;> rfl
  | @free s m h p d hm s' he ih =>
    obtain ⟨n, hi⟩ := ih
    have hp : p ≠ 0 := fun h0 => hi.nonnull (h0 ▸ List.mem_map_of_mem (f := Prod.fst) hm)
    rw [hookAfree_eq hi chk hm] at he
    cases he
    refine ⟨n, hi.aalloc, hi.afree, hi.arealloc, rfl, nodup_erase hi.nodup _, fun h0 => hi.nonnull ((List.erase_sublist.map _).subset h0), ?_⟩
    show replay (s.log ++ _) [] = _
    rw [replay_append, hi.log]
    simp only [Option.bind_some, replay, if_neg hp]
    rw [if_pos (mem_keys hm n), keys_erase hm hi.nodup]
  | @freeNull s m h s' he ih =>
    obtain ⟨n, hi⟩ := ih
    rw [hookAfree_null hi.afree] at he
    cases he
    refine ⟨n, hi.aalloc, hi.afree, hi.arealloc, hi.live, hi.nodup, hi.nonnull, ?_⟩
    show replay (s.log ++ _) [] = _
    rw [replay_append, hi.log]
    rfl
  | @realloc s m h e p d hm new al q s' d' he hq hfr hfp hd ih =>
    obtain ⟨n, hi⟩ := ih
    obtain ⟨s2, d2, h1, h2, _⟩ := hookArealloc_step hi chk e hm new al q hq hfr hfp (hookArealloc_answer hi he)
    rw [h1] at he
    cases he
    rw [hookRead_of h2.live h2.nodup List.mem_cons_self] at hd
    cases hd
    exact ⟨n, h2⟩

/-! ### C168 -/

/-- The heaps of the examples: the system answers 4096 or 8192, the functions of a user 65536, and new bytes are 7. -/
def exEnv : HookEnv := ⟨fun _ sz => if sz < 4 then .ok 4096 else .ok 8192, fun _ _ _ => .ok 65536, fun _ => 7⟩

/-- **C168** (partial: the functions belong together and are set while no block is held).  A block held can be read, freed and reallocated: `arealloc` returns
what the heap answers, the block is as long as asked for, keeps the old contents as far as they fit, and no other block changes; the heap that is set is asked for the new size and alignment
and gets back the old block. -/
theorem C168_blocks_partial {chk : Bool} {s : Hooks} {m : List (Nat × List Nat)} (h : HookHist chk s m) :
    ∃ n, s.aalloc = some n ∧ ∀ p d, (p, d) ∈ m →
      hookRead s p = some d
      ∧ (∃ s', hookAfree chk s p = .ok s' ∧ s'.log = s.log ++ [.freed n p] ∧ ∀ p' x, (p', x) ∈ m.erase (p, d) → hookRead s' p' = some x)
      ∧ ∀ (e : HookEnv) (new al q : Nat), e.answer n new al = .ok q → q ≠ 0 → q ∉ (m.erase (p, d)).map Prod.fst → (s.arealloc = some .dflt → q ≠ p) →
        ∃ s' d', hookArealloc chk e s p d.length new al = .ok (q, s') ∧ hookRead s' q = some d' ∧ d'.length = new
          ∧ d'.take (min d.length new) = d.take (min d.length new)
          ∧ (∀ p' x, (p', x) ∈ m.erase (p, d) → hookRead s' p' = some x)
          ∧ (s'.log = s.log ++ [.got n q new al, .freed n p] ∨ s'.log = s.log ++ [.moved n p d.length q new al]) := by
  obtain ⟨n, hi⟩ := hookHist_inv h
  refine ⟨n, hi.aalloc, fun p d hm => ⟨hookRead_of hi.live hi.nodup hm, ⟨_, hookAfree_eq hi chk hm, rfl, fun p' x hx => hookRead_of rfl (nodup_erase hi.nodup _) hx⟩, ?_⟩⟩
  intro e new al q ha hq hfr hfp
  obtain ⟨s', d', h1, h2, h3, h4, h5⟩ := hookArealloc_step hi chk e hm new al q hq hfr hfp ha
  exact ⟨s', d', h1, hookRead_of h2.live h2.nodup List.mem_cons_self, h3, h4, fun p' x hx => hookRead_of h2.live h2.nodup (List.mem_cons_of_mem _ hx), h5⟩

/-- **C168** (partial, as above).  Every heap gets back what it handed out, once, and nothing else: the blocks out are those that the program holds, and all are of the heap that is set. -/
theorem C168_heaps_partial {chk : Bool} {s : Hooks} {m : List (Nat × List Nat)} (h : HookHist chk s m) :
    ∃ n l, s.aalloc = some n ∧ replay s.log [] = some l ∧ l.Nodup ∧ ∀ k p, (k, p) ∈ l ↔ k = n ∧ ∃ d, (p, d) ∈ m := by
  obtain ⟨n, hi⟩ := hookHist_inv h
  refine ⟨n, _, hi.aalloc, hi.log, ?_, ?_⟩
  · have : (m.map fun x => (n, x.1)) = (m.map Prod.fst).map (Prod.mk n) := by rw [List.map_map]; rfl
    rw [this]
    exact List.Nodup.map (fun a b hab => (Prod.mk.inj hab).2) hi.nodup
  · intro k p
    rw [List.mem_map]
    constructor
    · rintro ⟨⟨a, b⟩, hx, h0⟩
      cases h0
      exact ⟨rfl, b, hx⟩
    · rintro ⟨rfl, d, hd⟩
      exact ⟨_, hd, rfl⟩

/-- **C168**.  `aalloc` asks the function set last, whatever was set before and whatever the others are, for the size and alignment of the call, and returns its answer, a block of that size. -/
theorem C168_current (chk : Bool) (e : HookEnv) (s : Hooks) (h : Nat) (f : Option Nat) (r : Option ReallocFn) (sz al p : Nat) :
    (∃ s', hookAalloc chk e (((s.setAalloc (some h)).setAfree f).setArealloc r) sz al = .ok (p, s') ∧ (p ≠ 0 → ∃ d, hookRead s' p = some d ∧ d.length = sz)) ↔
      e.answer h sz al = .ok p := by
  unfold hookAalloc Hooks.setArealloc Hooks.setAfree Hooks.setAalloc
  constructor
  · rintro ⟨s', hs, -⟩
    obtain ⟨a, h1, h2⟩ := bind_ok hs
    cases h2
    exact h1
  · intro ha
    simp only [ha, Res.bind]
    refine ⟨_, rfl, fun hp => ⟨e.fresh 0 sz, ?_, ?_⟩⟩
    · simp [hookRead, hp]
    · simp [HookEnv.fresh]

/-- **C168**.  Calls through null functions stop at the assertion; without assertions they are undefined.  The default `arealloc` needs all three. -/
theorem C168_null (e : HookEnv) (s : Hooks) (p old new al : Nat) :
    (s.aalloc = none → hookAalloc true e s new al = .abort ∧ hookAalloc false e s new al = .ub)
    ∧ (s.afree = none → hookAfree true s p = .abort ∧ hookAfree false s p = .ub)
    ∧ (s.arealloc = none → hookArealloc true e s p old new al = .abort ∧ hookArealloc false e s p old new al = .ub)
    ∧ (s.arealloc = some .dflt → s.aalloc = none → hookArealloc true e s p old new al = .abort ∧ hookArealloc false e s p old new al = .ub)
    ∧ (s.arealloc = some .dflt → s.afree = none → ∀ q, hookArealloc false e s p old new al ≠ .ok q) := by
  refine ⟨fun h => ?_, fun h => ?_, fun h => ?_, fun h h' => ?_, fun h h' q hq => ?_⟩
  · simp only [hookAalloc, h]; exact ⟨rfl, rfl⟩
  · simp only [hookAfree, h]; exact ⟨rfl, rfl⟩
  · simp only [hookArealloc, h]; exact ⟨rfl, rfl⟩
  · simp only [hookArealloc, h, hookAreallocImpl, hookAalloc, h']; exact ⟨rfl, rfl⟩
  · rw [hookArealloc_dflt h] at hq
    unfold hookAreallocImpl at hq
    obtain ⟨r, h1, h2⟩ := bind_ok hq
    have hr : r.2.afree = none := by
      unfold hookAalloc at h1
      split at h1
      · cases h1
      · obtain ⟨a, h3, h4⟩ := bind_ok h1
        cases h4
        exact h'
    simp only at h2
    generalize (if new < old then new else old) = mn at h2
    split at h2
    · cases h2
    · split at h2
      · split at h2
        · cases h2
        · obtain ⟨s2, h5, h6⟩ := bind_ok h2
          simp only [hookAfree, hr] at h5
          cases h5
      · cases h2

/-- **C168**.  The malloc resource does what the functions do, except that it reports null; the size and the alignment given to `deallocate` do not matter. -/
theorem C168_resource (chk : Bool) (e : HookEnv) (s s' : Hooks) (p old new al q : Nat) :
    (hookMallocAllocate chk e s new al = .ok (q, s') ↔ hookAalloc chk e s new al = .ok (q, s') ∧ q ≠ 0)
    ∧ (hookMallocReallocate chk e s p old new al = .ok (q, s') ↔ hookArealloc chk e s p old new al = .ok (q, s') ∧ q ≠ 0)
    ∧ (∀ x, hookAalloc chk e s new al = .ok (0, x) → hookMallocAllocate chk e s new al = .abort)
    ∧ (∀ x, hookArealloc chk e s p old new al = .ok (0, x) → hookMallocReallocate chk e s p old new al = .abort)
    ∧ ∀ sz al', hookMallocDeallocate chk s p sz al' = hookAfree chk s p := by
  have key : ∀ x : Res (Nat × Hooks), (x.bind fun r => if r.1 = 0 then .abort else .ok r) = .ok (q, s') ↔ x = .ok (q, s') ∧ q ≠ 0 := by
    intro x
    constructor
    · intro h
      obtain ⟨a, h1, h2⟩ := bind_ok h
      split at h2
      · cases h2
      · cases h2
        rename_i h3
        exact ⟨h1, h3⟩
    · rintro ⟨rfl, hq⟩
      exact if_neg hq
  refine ⟨key _, key _, fun x h => ?_, fun x h => ?_, fun _ _ => rfl⟩
  · unfold hookMallocAllocate; rw [h]; rfl
  · unfold hookMallocReallocate; rw [h]; rfl

/-- **C168 is false** of functions in general: a block held while the functions are changed is freed by the wrong heap, also by the default `arealloc`; if `aalloc` and `afree` are changed but not
the user's `arealloc`, or only one of the two, blocks go to the wrong heap too; and there is no reallocation of null. -/
theorem C168_refuted :
    -- a block of heap 0, then the functions of heap 1
    (∃ s, hookAalloc true exEnv {} 2 8 = .ok (4096, s)
      ∧ (let t := ((s.setAalloc (some 1)).setAfree (some 1)).setArealloc (some .dflt)
         hookAfree true t 4096 = .ub ∧ hookArealloc true exEnv t 4096 2 3 8 = .ub))
    -- only `aalloc` is changed
    ∧ (∃ s, hookAalloc true exEnv (Hooks.setAalloc {} (some 1)) 2 8 = .ok (65536, s) ∧ hookAfree true s 65536 = .ub)
    -- the function for `arealloc` is not
    ∧ (∃ s, hookAalloc true exEnv (Hooks.setArealloc {} (some (.user 1))) 2 8 = .ok (4096, s) ∧ hookArealloc true exEnv s 4096 2 3 8 = .ub)
    ∧ hookArealloc true exEnv {} 0 0 16 8 = .ub := by
  refine ⟨⟨_, rfl, ?_⟩, ⟨_, rfl, ?_⟩, ⟨_, rfl, ?_⟩, ?_⟩ <;> decide +kernel

/-- A history: two bytes from the system, one of them stored, then reallocated to five. -/
theorem exHookHist : ∃ s, HookHist true s [(8192, [7, 9, 7, 7, 7])] := by
  have h1 := (HookHist.start (chk := true)).alloc exEnv 2 8 4096 _ [7, 7] (by decide) (by simp) rfl (by decide +kernel)
  have h2 := h1.store 4096 1 9
  exact ⟨_, h2.realloc exEnv 4096 [7, 9] (by decide +kernel) 5 8 8192 _ [7, 9, 7, 7, 7] rfl (by decide) (by decide +kernel) (by decide) (by decide +kernel)⟩

example : hookArealloc true exEnv (Hooks.setArealloc (Hooks.setAfree (Hooks.setAalloc {live := [⟨512, 3, [1, 2]⟩]} (some 3)) (some 3)) (some (.user 3))) 512 2 3 8
    = .ok (65536, ⟨some 3, some 3, some (.user 3), [⟨65536, 3, [1, 2, 7]⟩], [.moved 3 512 2 65536 3 8]⟩) := by decide +kernel

end C4
