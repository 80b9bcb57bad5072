import Verif.Model.IterChan

/-!
# `IterBuffered` never waits for who reads from it (C119, part 1: safety)
-/

namespace Zinx.Props

open Zinx.IterChan

variable {E : Type}

/-- `f 0 + … + f (n - 1)`. -/
def sumBelow (f : Nat → Nat) : Nat → Nat
  | 0 => 0
  | n + 1 => sumBelow f n + f n

theorem sumBelow_congr {f g : Nat → Nat} : ∀ {n : Nat}, (∀ i, i < n → f i = g i) → sumBelow f n = sumBelow g n
  | 0, _ => rfl
  | n + 1, h => by
    unfold sumBelow
    rw [sumBelow_congr (fun i hi => h i (by omega)), h n (by omega)]

/-- Two sums whose terms differ at one place. -/
theorem sumBelow_one {f g : Nat → Nat} {i : Nat} : ∀ {n : Nat}, (∀ j, j ≠ i → f j = g j) → i < n → sumBelow f n + g i = sumBelow g n + f i
  | 0, _, hi => absurd hi (Nat.not_lt_zero i)
  | n + 1, h, hi => by
    unfold sumBelow
    by_cases e : i = n
    · subst e
      rw [sumBelow_congr (fun j hj => h j (by omega))]; omega
    · have := sumBelow_one (n := n) h (by omega)
      have := h n (fun h => e h.symm)
      omega

theorem sumBelow_mono {f g : Nat → Nat} : ∀ {n : Nat}, (∀ i, i < n → f i ≤ g i) → sumBelow f n ≤ sumBelow g n
  | 0, _ => Nat.le_refl 0
  | n + 1, h => by
    unfold sumBelow
    have := sumBelow_mono (n := n) (fun i hi => h i (by omega))
    have := h n (by omega)
    omega

theorem sumBelow_lt {f g : Nat → Nat} {i : Nat} : ∀ {n : Nat}, (∀ j, j < n → f j ≤ g j) → i < n → f i < g i → sumBelow f n < sumBelow g n
  | 0, _, hi, _ => absurd hi (Nat.not_lt_zero i)
  | n + 1, h, hi, hl => by
    unfold sumBelow
    by_cases e : i = n
    · subst e
      have := sumBelow_mono (n := i) (fun j hj => h j (by omega))
      omega
    · have := sumBelow_lt (n := n) (fun j hj => h j (by omega)) (by omega) hl
      have := h n (by omega)
      omega

theorem sumBelow_zero {f : Nat → Nat} : ∀ {n : Nat}, sumBelow f n = 0 → ∀ i, i < n → f i = 0
  | 0, _, i, hi => absurd hi (Nat.not_lt_zero i)
  | n + 1, h, i, hi => by
    unfold sumBelow at h
    by_cases e : i = n
    · subst e; omega
    · exact sumBelow_zero (n := n) (by omega) i (by omega)

theorem sumBelow_of_zero {f : Nat → Nat} : ∀ {n : Nat}, (∀ i, i < n → f i = 0) → sumBelow f n = 0
  | 0, _ => rfl
  | n + 1, h => by
    unfold sumBelow
    rw [sumBelow_of_zero (fun i hi => h i (by omega)), h n (by omega)]

theorem sumBelow_ones : ∀ n, sumBelow (fun _ => 1) n = n
  | 0 => rfl
  | n + 1 => by unfold sumBelow; rw [sumBelow_ones n]

/-- The entries of shard `i` in a list of entries with their shards, in order. -/
def ofShard (l : List (Nat × E)) (i : Nat) : List E := l.filterMap fun p => if p.1 = i then some p.2 else none

theorem ofShard_append (l k : List (Nat × E)) (i : Nat) : ofShard (l ++ k) i = ofShard l i ++ ofShard k i := List.filterMap_append ..

theorem ofShard_one (i j : Nat) (x : E) : ofShard [(i, x)] j = if i = j then [x] else [] := by
  unfold ofShard
  by_cases e : i = j <;> simp [e]

/-- All entries, shard by shard. -/
theorem ofShard_length {n : Nat} : ∀ {l : List (Nat × E)}, (∀ p, p ∈ l → p.1 < n) → sumBelow (fun i => (ofShard l i).length) n = l.length
  | [], _ => sumBelow_of_zero fun _ _ => rfl
  | p :: l, h => by
    have ih := ofShard_length (l := l) fun q hq => h q (List.mem_cons_of_mem _ hq)
    have hp := h p List.mem_cons_self
    have := sumBelow_one (f := fun i => (ofShard (p :: l) i).length) (g := fun i => (ofShard l i).length) (i := p.1) (n := n)
      (fun j hj => by simp [ofShard, Ne.symm hj]) hp
    have h2 : (ofShard (p :: l) p.1).length = (ofShard l p.1).length + 1 := by simp [ofShard]
    simp only [h2] at this
    simp only [List.length_cons]
    omega

/-- The shard's goroutine has not done line 177. -/
def snapPending : Snap E → Bool
  | .absent | .lock | .locked | .made => true
  | _ => false

/-- What the copying goroutine has in hand. -/
def copyHand : Copy E → List E
  | .holding x => [x]
  | _ => []

/-- The shard's goroutine has been started. -/
def snapOn : Snap E → Bool
  | .absent => false
  | _ => true

/-- The copying goroutine has been started. -/
def copyOn : Copy E → Bool
  | .absent => false
  | _ => true

/-- The copying goroutine has returned. -/
def copyEnded : Copy E → Bool
  | .ended => true
  | _ => false

/-- The goroutine of line 213 has been started. -/
def fanIsOn : Fan → Bool
  | .absent => false
  | _ => true

/-- How many shards the loop of line 173 has started. -/
def mainAt (n : Nat) : Main → Nat
  | .spawn j => j
  | _ => n

/-- How many channels the loop of line 193 has started. -/
def fanAt (n : Nat) : Fan → Nat
  | .absent => 0
  | .spawn j => j
  | _ => n

/-- What has been put into the channel that is returned. -/
def sentAll (s : State E) : List (Nat × E) := s.taken ++ s.out

/-- One shard: what it held is what has been put into the channel returned, what the copying goroutine holds, what is in the shard's channel and what is left to send, in this order. -/
def ShardOk (sn : Snap E) (ch : Option (Chan E)) (cp : Copy E) (seen items sent : List E) : Prop :=
  match sn with
  | .absent => ch = none ∧ sent = [] ∧ cp = .absent
  | .lock => ch = none ∧ sent = [] ∧ cp = .absent
  | .locked => ch = none ∧ sent = [] ∧ cp = .absent ∧ seen = items
  | .made => ch = some ⟨seen.length, [], false⟩ ∧ sent = [] ∧ cp = .absent ∧ seen = items
  | .send rest => cp ≠ .ended ∧ ∃ b, ch = some ⟨seen.length, b, false⟩ ∧ seen = sent ++ copyHand cp ++ b ++ rest
  | .unlocked => cp ≠ .ended ∧ ∃ b, ch = some ⟨seen.length, b, false⟩ ∧ seen = sent ++ copyHand cp ++ b
  | .ended => ∃ b, ch = some ⟨seen.length, b, true⟩ ∧ seen = sent ++ copyHand cp ++ b ∧ (cp = .ended → b = [])

/-- What stays true while `IterBuffered` is at work, `ShardCount` being the number of shards. -/
structure IterInv (n : Nat) (s : State E) : Prop where
  alive : s.dead = false
  shard : ∀ i, ShardOk (s.snap i) (s.chan i) (s.copy i) (s.seen i) (s.items i) (ofShard (sentAll s) i)
  locks : ∀ i, (s.snap i).reads = true → s.writer i = false
  spawned : ∀ i, snapOn (s.snap i) = true ↔ i < mainAt n s.main
  mainLe : mainAt n s.main ≤ n
  wg : s.wg = sumBelow (fun i => if snapPending (s.snap i) then 1 else 0) n
  fanned : ∀ i, copyOn (s.copy i) = true ↔ i < fanAt n s.fan
  fanLe : fanAt n s.fan ≤ n
  fanOn : fanIsOn s.fan = true ↔ ∃ t, s.main = .returned t
  fwg : fanIsOn s.fan = true → s.fwg = sumBelow (fun i => if copyEnded (s.copy i) then 0 else 1) n
  total : ∀ t, s.main = .returned t → s.wg = 0 ∧ t = sumBelow (fun i => (s.seen i).length) n
  closed : s.outClosed = true ↔ s.fan = .ended
  fanEnd : s.fan = .ended → s.fwg = 0
  tags : ∀ p, p ∈ sentAll s → p.1 < n

theorem iterInv_start (n : Nat) (items : Nat → List E) : IterInv n (start items n) := by
  constructor <;> simp [start, ShardOk, sentAll, ofShard, Snap.reads, mainAt, fanAt, snapPending, snapOn, copyOn, fanIsOn]
  induction n with
  | zero => rfl
  | succ n ih => unfold sumBelow; rw [← ih]

theorem pending_of_wg {n : Nat} {s : State E} (h : IterInv n s) (hw : s.wg = 0) {i : Nat} (hi : i < n) : snapPending (s.snap i) = false := by
  have := sumBelow_zero (h.wg ▸ hw) i hi
  cases hp : snapPending (s.snap i)
  · rfl
  · simp [hp] at this

theorem capSum_eq {n : Nat} {s : State E} (h : IterInv n s) (hw : s.wg = 0) : ∀ k, k ≤ n → capSum s.chan k = sumBelow (fun i => (s.seen i).length) k
  | 0, _ => rfl
  | k + 1, hk => by
    unfold capSum sumBelow
    rw [capSum_eq h hw k (by omega)]
    have hp := pending_of_wg h hw (i := k) (by omega)
    have hs := h.shard k
    cases hc : s.snap k <;> rw [hc] at hs hp <;> simp [snapPending, ShardOk] at hs hp
    · obtain ⟨_, b, h1, _⟩ := hs; rw [h1]
    · obtain ⟨_, b, h1, _⟩ := hs; rw [h1]
    · obtain ⟨b, h1, _⟩ := hs; rw [h1]

/-- What has been put into the channel that is returned fits: there is room for what is still in hand. -/
theorem iter_room {n : Nat} {s : State E} (h : IterInv n s) {t : Nat} (hm : s.main = .returned t) {i : Nat} {x : E} (hc : s.copy i = .holding x) : s.out.length < t := by
  obtain ⟨hw, ht⟩ := h.total t hm
  have hi : i < n := by
    have := (h.fanned i).1 (by rw [hc]; rfl)
    have := h.fanLe
    omega
  have key : ∀ j, j < n → (ofShard (sentAll s) j).length + (copyHand (s.copy j)).length ≤ (s.seen j).length := by
    intro j hj
    have hp := pending_of_wg h hw hj
    have hs := h.shard j
    cases hcj : s.snap j <;> rw [hcj] at hs hp <;> simp only [snapPending, ShardOk, reduceCtorEq] at hs hp
    · obtain ⟨_, b, _, h2⟩ := hs; rw [h2]; simp
    · obtain ⟨_, b, _, h2⟩ := hs; rw [h2]; simp
    · obtain ⟨b, _, h2, _⟩ := hs; rw [h2]; simp
  have hlt := sumBelow_lt (f := fun j => (ofShard (sentAll s) j).length) (g := fun j => (s.seen j).length) (i := i) (n := n)
    (fun j hj => by have := key j hj; omega) hi (by have := key i hi; rw [hc] at this; simp [copyHand] at this; omega)
  rw [ofShard_length h.tags, ← ht] at hlt
  simp [sentAll] at hlt
  omega

theorem shard_at {i : Nat} {P : Nat → Prop} (h1 : P i) (h2 : ∀ j, j ≠ i → P j) (j : Nat) : P j := by
  by_cases e : j = i
  · subst e; exact h1
  · exact h2 j e

theorem upd_self {α : Type} (f : Nat → α) (i : Nat) (a : α) : IterChan.upd f i a i = a := by simp [IterChan.upd]

theorem upd_ne {α : Type} (f : Nat → α) {i j : Nat} (a : α) (h : j ≠ i) : IterChan.upd f i a j = f j := by simp [IterChan.upd, h]

/-- Counting over shards when one changes. -/
theorem count_upd {α : Type} (f : Nat → α) (c : α → Nat) {i n : Nat} (a : α) (hi : i < n) : sumBelow (fun j => c (IterChan.upd f i a j)) n + c (f i) = sumBelow (fun j => c (f j)) n + c a := by
  have := sumBelow_one (f := fun j => c (IterChan.upd f i a j)) (g := fun j => c (f j)) (i := i) (n := n) (fun j hj => by simp only [upd_ne f a hj]) hi
  simpa only [upd_self] using this

theorem snap_lt {n : Nat} {s : State E} (h : IterInv n s) {i : Nat} (hs : snapOn (s.snap i) = true) : i < n := by
  have := (h.spawned i).1 hs
  have := h.mainLe
  omega

theorem copy_lt {n : Nat} {s : State E} (h : IterInv n s) {i : Nat} (hs : copyOn (s.copy i) = true) : i < n := by
  have := (h.fanned i).1 hs
  have := h.fanLe
  omega

/-- A step of a shard's goroutine that changes only this goroutine and its channel, and neither starts it nor does line 177. -/
theorem iter_snap {n : Nat} {s : State E} (h : IterInv n s) (i : Nat) (sn : Snap E) (ch : Option (Chan E)) (hon : snapOn (s.snap i) = true) (hon2 : snapOn sn = true) (hp : snapPending sn = snapPending (s.snap i))
    (hl : sn.reads = true → s.writer i = false) (hok : ShardOk sn ch (s.copy i) (s.seen i) (s.items i) (ofShard (sentAll s) i)) : IterInv n { s with snap := upd s.snap i sn, chan := upd s.chan i ch } := by
  refine ⟨h.alive, ?_, ?_, ?_, h.mainLe, ?_, h.fanned, h.fanLe, h.fanOn, h.fwg, h.total, h.closed, h.fanEnd, h.tags⟩
  · refine shard_at (i := i) ?_ fun j hj => ?_
    · simp only [upd_self]; exact hok
    · simp only [upd_ne _ _ hj]; exact h.shard j
  · refine shard_at (i := i) ?_ fun j hj => ?_
    · simp only [upd_self]; exact hl
    · simp only [upd_ne _ _ hj]; exact h.locks j
  · refine shard_at (i := i) ?_ fun j hj => ?_
    · simp only [upd_self, hon2, true_iff]; exact (h.spawned i).1 hon
    · simp only [upd_ne _ _ hj]; exact h.spawned j
  · have := count_upd s.snap (fun x => if snapPending x then 1 else 0) sn (snap_lt h hon)
    have h2 := h.wg
    simp only [hp] at this
    show s.wg = sumBelow (fun j => if snapPending (IterChan.upd s.snap i sn j) then 1 else 0) n
    omega

/-- A step of a copying goroutine that changes only this goroutine and its channel, and neither starts nor ends it. -/
theorem iter_copy {n : Nat} {s : State E} (h : IterInv n s) (i : Nat) (cp : Copy E) (ch : Option (Chan E)) (hon : copyOn (s.copy i) = true) (hon2 : copyOn cp = true) (he : copyEnded cp = copyEnded (s.copy i))
    (hok : ShardOk (s.snap i) ch cp (s.seen i) (s.items i) (ofShard (sentAll s) i)) : IterInv n { s with copy := upd s.copy i cp, chan := upd s.chan i ch } := by
  refine ⟨h.alive, ?_, h.locks, h.spawned, h.mainLe, h.wg, ?_, h.fanLe, h.fanOn, ?_, h.total, h.closed, h.fanEnd, h.tags⟩
  · refine shard_at (i := i) ?_ fun j hj => ?_
    · simp only [upd_self]; exact hok
    · simp only [upd_ne _ _ hj]; exact h.shard j
  · refine shard_at (i := i) ?_ fun j hj => ?_
    · simp only [upd_self, hon2, true_iff]; exact (h.fanned i).1 hon
    · simp only [upd_ne _ _ hj]; exact h.fanned j
  · intro hf
    have := count_upd s.copy (fun x => if copyEnded x then 0 else 1) cp (copy_lt h hon)
    have h2 := h.fwg hf
    simp only [he] at this
    show s.fwg = sumBelow (fun j => if copyEnded (IterChan.upd s.copy i cp j) then 0 else 1) n
    omega

theorem upd_same {α : Type} (f : Nat → α) (i : Nat) : IterChan.upd f i (f i) = f := by
  funext j
  by_cases e : j = i <;> simp [IterChan.upd, e]

theorem iterInv_step {n : Nat} {s t : State E} {l : Label E} (h : IterInv n s) (hs : IterChan.Step n n s l t) : IterInv n t := by
  cases hs with
  | spawn j hd hm hj =>
    have hab : s.snap j = .absent := by
      cases hc : s.snap j <;> first | rfl | (have := (h.spawned j).1 (by rw [hc]; rfl); rw [hm] at this; simp [mainAt] at this)
    refine ⟨h.alive, ?_, ?_, ?_, hj, ?_, h.fanned, h.fanLe, ?_, h.fwg, ?_, h.closed, h.fanEnd, h.tags⟩
    · refine shard_at (i := j) ?_ fun k hk => ?_
      · have := h.shard j; rw [hab] at this; simp only [upd_self]; exact this
      · simp only [upd_ne _ _ hk]; exact h.shard k
    · refine shard_at (i := j) ?_ fun k hk => ?_
      · simp [upd_self, Snap.reads]
      · simp only [upd_ne _ _ hk]; exact h.locks k
    · refine shard_at (i := j) ?_ fun k hk => ?_
      · simp [upd_self, snapOn, mainAt]
      · simp only [upd_ne _ _ hk]; rw [h.spawned k, hm]; simp only [mainAt]; omega
    · have := count_upd s.snap (fun x => if snapPending x then 1 else 0) .lock hj
      have h2 := h.wg
      rw [hab] at this
      simp only [snapPending] at this
      show s.wg = _
      simp only [snapPending] at h2 ⊢
      omega
    · rw [h.fanOn, hm]; simp
    · intro t ht; cases ht
  | spawned hd hm =>
    refine ⟨h.alive, h.shard, h.locks, fun i => ?_, Nat.le_refl n, h.wg, h.fanned, h.fanLe, ?_, h.fwg, ?_, h.closed, h.fanEnd, h.tags⟩
    · rw [h.spawned i, hm]; rfl
    · rw [h.fanOn, hm]; simp
    · intro t ht; cases ht
  | waited hd hm hw =>
    have hf : s.fan = .absent := by
      cases hc : s.fan <;> first | rfl | (have := h.fanOn.1 (by rw [hc]; rfl); rw [hm] at this; simp at this)
    have hcp : ∀ i, s.copy i = .absent := by
      intro i
      cases hc : s.copy i <;> first | rfl | (have := (h.fanned i).1 (by rw [hc]; rfl); rw [hf] at this; simp [fanAt] at this)
    refine ⟨h.alive, h.shard, h.locks, fun i => ?_, Nat.le_refl n, h.wg, fun i => ?_, Nat.zero_le n, ?_, fun _ => ?_, ?_, ?_, ?_, h.tags⟩
    · rw [h.spawned i, hm]; rfl
    · rw [h.fanned i, hf]; rfl
    · simp [fanIsOn]
    · simp only [hcp, copyEnded]
      exact (sumBelow_ones n).symm
    · intro t ht; cases ht; exact ⟨hw, capSum_eq h hw n (Nat.le_refl n)⟩
    · rw [h.closed, hf]; simp
    · intro hh; cases hh
  | rlock i hd hsn hw =>
    have hab := h.shard i
    rw [hsn] at hab
    refine ⟨h.alive, ?_, ?_, ?_, h.mainLe, ?_, h.fanned, h.fanLe, h.fanOn, h.fwg, ?_, h.closed, h.fanEnd, h.tags⟩
    · refine shard_at (i := i) ?_ fun k hk => ?_
      · simp only [upd_self]; exact ⟨hab.1, hab.2.1, hab.2.2, rfl⟩
      · simp only [upd_ne _ _ hk]; exact h.shard k
    · refine shard_at (i := i) ?_ fun k hk => ?_
      · intro _; exact hw
      · simp only [upd_ne _ _ hk]; exact h.locks k
    · refine shard_at (i := i) ?_ fun k hk => ?_
      · have := h.spawned i; rw [hsn] at this; simp only [upd_self]; exact this
      · simp only [upd_ne _ _ hk]; exact h.spawned k
    · have := count_upd s.snap (fun x => if snapPending x then 1 else 0) .locked (snap_lt h (i := i) (by rw [hsn]; rfl))
      have h2 := h.wg
      rw [hsn] at this
      simp only [snapPending] at this
      show s.wg = _
      simp only [snapPending] at h2 ⊢
      omega
    · intro t ht
      have := pending_of_wg h (h.total t ht).1 (snap_lt h (i := i) (by rw [hsn]; rfl))
      rw [hsn] at this; cases this
  | make i hd hsn hi =>
    have hab := h.shard i
    rw [hsn] at hab
    obtain ⟨h1, h2, h3, h4⟩ := hab
    refine iter_snap h i _ _ (by rw [hsn]; rfl) rfl (by rw [hsn]; rfl) (fun _ => h.locks i (by rw [hsn]; rfl)) ?_
    refine ⟨?_, h2, h3, h4⟩
    rw [h4]
  | makePanic i hd hsn hi =>
    have := snap_lt h (i := i) (by rw [hsn]; rfl)
    omega
  | done i hd hsn hw =>
    have hab := h.shard i
    rw [hsn] at hab
    obtain ⟨h1, h2, h3, h4⟩ := hab
    refine ⟨h.alive, ?_, ?_, ?_, h.mainLe, ?_, h.fanned, h.fanLe, h.fanOn, h.fwg, ?_, h.closed, h.fanEnd, h.tags⟩
    · refine shard_at (i := i) ?_ fun k hk => ?_
      · simp only [upd_self]; exact ⟨by rw [h3]; simp, [], h1, by show _ = ofShard (sentAll s) i ++ _ ++ _ ++ _; rw [h2, h3, h4]; rfl⟩
      · simp only [upd_ne _ _ hk]; exact h.shard k
    · refine shard_at (i := i) ?_ fun k hk => ?_
      · intro _; exact h.locks i (by rw [hsn]; rfl)
      · simp only [upd_ne _ _ hk]; exact h.locks k
    · refine shard_at (i := i) ?_ fun k hk => ?_
      · have := h.spawned i; rw [hsn] at this; simp only [upd_self]; exact this
      · simp only [upd_ne _ _ hk]; exact h.spawned k
    · have := count_upd s.snap (fun x => if snapPending x then 1 else 0) (.send (s.items i)) (snap_lt h (i := i) (by rw [hsn]; rfl))
      have h2 := h.wg
      rw [hsn] at this
      simp only [snapPending] at this
      show s.wg - 1 = _
      simp only [snapPending] at h2 ⊢
      simp at this
      omega
    · intro t ht
      have := (h.total t ht).1
      omega
  | donePanic i hd hsn hw =>
    have := pending_of_wg h hw (snap_lt h (i := i) (by rw [hsn]; rfl))
    rw [hsn] at this; cases this
  | send i x rest c hd hsn hc ho hr =>
    have hab := h.shard i
    rw [hsn] at hab
    obtain ⟨h1, b, h2, h3⟩ := hab
    refine iter_snap h i _ _ (by rw [hsn]; rfl) rfl (by rw [hsn]; rfl) (fun _ => h.locks i (by rw [hsn]; rfl)) ?_
    rw [hc] at h2; cases h2
    exact ⟨h1, b ++ [x], rfl, by rw [h3]; simp⟩
  | sendPanic i x rest c hd hsn hc ho =>
    have hab := h.shard i
    rw [hsn] at hab
    obtain ⟨h1, b, h2, h3⟩ := hab
    rw [hc] at h2; cases h2; cases ho
  | runlock i hd hsn =>
    have hab := h.shard i
    rw [hsn] at hab
    obtain ⟨h1, b, h2, h3⟩ := hab
    have := iter_snap h i .unlocked (s.chan i) (by rw [hsn]; rfl) rfl (by rw [hsn]; rfl) (fun hh => by cases hh) ⟨h1, b, h2, by simpa using h3⟩
    rw [upd_same] at this; exact this
  | close i c hd hsn hc ho =>
    have hab := h.shard i
    rw [hsn] at hab
    obtain ⟨h1, b, h2, h3⟩ := hab
    refine iter_snap h i _ _ (by rw [hsn]; rfl) rfl (by rw [hsn]; rfl) (fun hh => by cases hh) ?_
    rw [hc] at h2; cases h2
    exact ⟨b, rfl, h3, fun hh => absurd hh h1⟩
  | closePanic i hd hsn hc =>
    have hab := h.shard i
    rw [hsn] at hab
    obtain ⟨h1, b, h2, h3⟩ := hab
    cases hc _ h2
  | fanSpawn j hd hm hj =>
    have hab : s.copy j = .absent := by
      cases hc : s.copy j <;> first | rfl | (have := (h.fanned j).1 (by rw [hc]; rfl); rw [hm] at this; simp [fanAt] at this)
    obtain ⟨t, ht⟩ := h.fanOn.1 (by rw [hm]; rfl)
    have hp := pending_of_wg h (h.total t ht).1 hj
    refine ⟨h.alive, ?_, h.locks, h.spawned, h.mainLe, h.wg, ?_, hj, ?_, fun _ => ?_, h.total, ?_, ?_, h.tags⟩
    · refine shard_at (i := j) ?_ fun k hk => ?_
      · have := h.shard j
        rw [hab] at this
        simp only [upd_self]
        show ShardOk _ _ _ _ _ (ofShard (sentAll s) j)
        cases hsn : s.snap j <;> rw [hsn] at hp this <;> simp [snapPending] at hp
        · exact ⟨by simp, this.2⟩
        · exact ⟨by simp, this.2⟩
        · obtain ⟨b, h1, h2, _⟩ := this
          exact ⟨b, h1, h2, fun hh => by cases hh⟩
      · simp only [upd_ne _ _ hk]; exact h.shard k
    · refine shard_at (i := j) ?_ fun k hk => ?_
      · simp [upd_self, copyOn, fanAt]
      · simp only [upd_ne _ _ hk]; rw [h.fanned k, hm]; simp only [fanAt]; omega
    · rw [← h.fanOn, hm]; simp [fanIsOn]
    · have := count_upd s.copy (fun x => if copyEnded x then 0 else 1) .ready hj
      have h2 := h.fwg (by rw [hm]; rfl)
      rw [hab] at this
      simp only [copyEnded, Bool.false_eq_true, if_false] at this
      show s.fwg = _
      simp only [copyEnded] at h2 ⊢
      omega
    · rw [h.closed, hm]; simp
    · intro hh; cases hh
  | fanSpawned hd hm =>
    refine ⟨h.alive, h.shard, h.locks, h.spawned, h.mainLe, h.wg, fun i => ?_, Nat.le_refl n, ?_, fun _ => h.fwg (by rw [hm]; rfl), h.total, ?_, ?_, h.tags⟩
    · rw [h.fanned i, hm]; rfl
    · rw [← h.fanOn, hm]; simp [fanIsOn]
    · rw [h.closed, hm]; simp
    · intro hh; cases hh
  | fanWaited hd hm hw =>
    refine ⟨h.alive, h.shard, h.locks, h.spawned, h.mainLe, h.wg, fun i => ?_, Nat.le_refl n, ?_, fun _ => h.fwg (by rw [hm]; rfl), h.total, ?_, fun _ => hw, h.tags⟩
    · rw [h.fanned i, hm]; rfl
    · rw [← h.fanOn, hm]; simp [fanIsOn]
    · simp
  | recv i x rest c hd hcp hc hb =>
    refine iter_copy h i _ _ (by rw [hcp]; rfl) rfl (by rw [hcp]; rfl) ?_
    have hab := h.shard i
    rw [hcp, hc] at hab
    cases hsn : s.snap i <;> rw [hsn] at hab <;> simp only [ShardOk, reduceCtorEq, false_and, and_false, Option.some.injEq] at hab
    · obtain ⟨_, b, h2, h3⟩ := hab
      subst h2; subst hb
      exact ⟨by simp, rest, rfl, by rw [h3]; simp [copyHand]⟩
    · obtain ⟨_, b, h2, h3⟩ := hab
      subst h2; subst hb
      exact ⟨by simp, rest, rfl, by rw [h3]; simp [copyHand]⟩
    · obtain ⟨b, h2, h3, _⟩ := hab
      subst h2; subst hb
      exact ⟨rest, rfl, by rw [h3]; simp [copyHand], fun hh => by cases hh⟩
  | recvEnd i c hd hcp hc hb ho hw =>
    have hi := copy_lt h (i := i) (by rw [hcp]; rfl)
    have hfan : fanIsOn s.fan = true := by
      cases hf : s.fan <;> first | rfl | (have := (h.fanned i).1 (by rw [hcp]; rfl); rw [hf] at this; simp [fanAt] at this)
    refine ⟨h.alive, ?_, h.locks, h.spawned, h.mainLe, h.wg, ?_, h.fanLe, h.fanOn, fun hf => ?_, h.total, h.closed, ?_, h.tags⟩
    · refine shard_at (i := i) ?_ fun k hk => ?_
      · have hab := h.shard i
        rw [hcp, hc] at hab
        simp only [upd_self, hc]
        show ShardOk _ _ _ _ _ (ofShard (sentAll s) i)
        cases hsn : s.snap i <;> rw [hsn] at hab <;> simp only [ShardOk, reduceCtorEq, false_and, and_false, Option.some.injEq] at hab
        · obtain ⟨_, b, h2, h3⟩ := hab
          subst h2; cases ho
        · obtain ⟨_, b, h2, h3⟩ := hab
          subst h2; cases ho
        · obtain ⟨b, h2, h3, _⟩ := hab
          subst h2
          exact ⟨b, rfl, h3, fun _ => hb⟩
      · simp only [upd_ne _ _ hk]; exact h.shard k
    · refine shard_at (i := i) ?_ fun k hk => ?_
      · have := h.fanned i; rw [hcp] at this; simp only [upd_self]; exact this
      · simp only [upd_ne _ _ hk]; exact h.fanned k
    · have := count_upd s.copy (fun x => if copyEnded x then 0 else 1) .ended hi
      have h2 := h.fwg hf
      rw [hcp] at this
      simp only [copyEnded] at this
      show s.fwg - 1 = _
      simp only [copyEnded] at h2 ⊢
      simp at this
      omega
    · intro hf
      have := h.fanEnd hf
      show s.fwg - 1 = 0
      omega
  | recvPanic i c hd hcp hc hb ho hw =>
    have hi := copy_lt h (i := i) (by rw [hcp]; rfl)
    have hfan : fanIsOn s.fan = true := by
      cases hf : s.fan <;> first | rfl | (have := (h.fanned i).1 (by rw [hcp]; rfl); rw [hf] at this; simp [fanAt] at this)
    have := sumBelow_zero (h.fwg hfan ▸ hw) i hi
    rw [hcp] at this; simp [copyEnded] at this
  | pass i x total hd hcp hm ho hr =>
    have hi := copy_lt h (i := i) (by rw [hcp]; rfl)
    have hsent : sentAll { s with copy := upd s.copy i .ready, out := s.out ++ [(i, x)] } = sentAll s ++ [(i, x)] := by simp [sentAll]
    have key : IterInv n { s with copy := upd s.copy i .ready, out := s.out ++ [(i, x)] } := by
      refine ⟨h.alive, ?_, h.locks, h.spawned, h.mainLe, h.wg, ?_, h.fanLe, h.fanOn, fun hf => ?_, h.total, h.closed, h.fanEnd, ?_⟩
      · rw [hsent]
        refine shard_at (i := i) ?_ fun k hk => ?_
        · have hab := h.shard i
          rw [hcp] at hab
          simp only [upd_self, ofShard_append, ofShard_one, if_true]
          cases hsn : s.snap i <;> rw [hsn] at hab <;> simp only [ShardOk, reduceCtorEq, false_and, and_false] at hab
          · obtain ⟨_, b, h2, h3⟩ := hab
            exact ⟨by simp, b, h2, by rw [h3]; simp [copyHand]⟩
          · obtain ⟨_, b, h2, h3⟩ := hab
            exact ⟨by simp, b, h2, by rw [h3]; simp [copyHand]⟩
          · obtain ⟨b, h2, h3, _⟩ := hab
            exact ⟨b, h2, by rw [h3]; simp [copyHand], fun hh => by cases hh⟩
        · simp only [upd_ne _ _ hk, ofShard_append, ofShard_one, if_neg (Ne.symm hk), List.append_nil]; exact h.shard k
      · refine shard_at (i := i) ?_ fun k hk => ?_
        · have := h.fanned i; rw [hcp] at this; simp only [upd_self]; exact this
        · simp only [upd_ne _ _ hk]; exact h.fanned k
      · have := count_upd s.copy (fun x => if copyEnded x then 0 else 1) .ready hi
        have h2 := h.fwg hf
        rw [hcp] at this
        simp only [copyEnded, Bool.false_eq_true, if_false] at this
        show s.fwg = _
        simp only [copyEnded] at h2 ⊢
        omega
      · intro p hp
        rw [hsent, List.mem_append] at hp
        rcases hp with hp | hp
        · exact h.tags p hp
        · rw [List.mem_singleton] at hp; subst hp; exact hi
    exact key
  | passPanic i x hd hcp ho =>
    have hi := copy_lt h (i := i) (by rw [hcp]; rfl)
    have hf := h.closed.1 ho
    have := sumBelow_zero (h.fwg (by rw [hf]; rfl) ▸ h.fanEnd hf) i hi
    rw [hcp] at this; simp [copyEnded] at this
  | take x rest hd ho =>
    have hsent : sentAll { s with out := rest, taken := s.taken ++ [x] } = sentAll s := by simp [sentAll, ho]
    refine ⟨h.alive, ?_, h.locks, h.spawned, h.mainLe, h.wg, h.fanned, h.fanLe, h.fanOn, h.fwg, h.total, h.closed, h.fanEnd, ?_⟩
    · rw [hsent]; exact h.shard
    · rw [hsent]; exact h.tags
  | lockW i hd hw hr =>
    refine ⟨h.alive, h.shard, ?_, h.spawned, h.mainLe, h.wg, h.fanned, h.fanLe, h.fanOn, h.fwg, h.total, h.closed, h.fanEnd, h.tags⟩
    refine shard_at (i := i) ?_ fun k hk => ?_
    · intro hh; rw [show (s.snap i).reads = true from hh] at hr; cases hr
    · simp only [upd_ne _ _ hk]; exact h.locks k
  | unlockW i l hd hw =>
    have hnr : (s.snap i).reads = false := by
      cases hr : (s.snap i).reads
      · rfl
      · rw [h.locks i hr] at hw; cases hw
    refine ⟨h.alive, ?_, ?_, h.spawned, h.mainLe, h.wg, h.fanned, h.fanLe, h.fanOn, h.fwg, h.total, h.closed, h.fanEnd, h.tags⟩
    · refine shard_at (i := i) ?_ fun k hk => ?_
      · have hab := h.shard i
        simp only [upd_self]
        show ShardOk _ _ _ _ _ (ofShard (sentAll s) i)
        cases hsn : s.snap i <;> rw [hsn] at hab hnr <;> first | exact hab | cases hnr
      · simp only [upd_ne _ _ hk]; exact h.shard k
    · refine shard_at (i := i) ?_ fun k hk => ?_
      · intro _; simp only [upd_self]
      · simp only [upd_ne _ _ hk]; exact h.locks k

theorem iterInv_run {n : Nat} {items : Nat → List E} {ls : List (Label E)} {s : State E} (h : Steps (IterChan.Step n n) (start items n) ls s) : IterInv n s :=
  h.invariant (P := IterInv n) (fun _ _ _ hi hs => iterInv_step hi hs) (iterInv_start n items)

/-- **C119** (no goroutine waits for the reader): whatever the caller has read, the process lives, a shard's goroutine that has an entry to send can send it, and a copying goroutine that holds an entry can put it into the channel that was returned. -/
theorem C119_no_wait {n : Nat} {items : Nat → List E} {ls : List (Label E)} {s : State E} (h : Steps (IterChan.Step n n) (start items n) ls s) :
    s.dead = false ∧ (∀ i x rest, s.snap i = .send (x :: rest) → ∃ t, IterChan.Step n n s (.snap i) t ∧ t.snap i = .send rest) ∧
    (∀ i x, s.copy i = .holding x → ∃ t, IterChan.Step n n s (.copy i) t ∧ t.out = s.out ++ [(i, x)]) := by
  have hi := iterInv_run h
  refine ⟨hi.alive, fun i x rest hsn => ?_, fun i x hcp => ?_⟩
  · have hs := hi.shard i
    rw [hsn] at hs
    obtain ⟨_, b, h1, h2⟩ := hs
    exact ⟨_, .send i x rest _ hi.alive hsn h1 rfl (by simp only; rw [h2]; simp; omega), by simp [upd]⟩
  · have hfan : fanIsOn s.fan = true := by
      cases hf : s.fan <;> first | rfl | (have := (hi.fanned i).1 (by rw [hcp]; rfl); rw [hf] at this; simp [fanAt] at this)
    obtain ⟨t, ht⟩ := hi.fanOn.1 hfan
    have ho : s.outClosed = false := by
      cases ho : s.outClosed
      · rfl
      · have hf := hi.closed.1 ho
        have := sumBelow_zero (hi.fwg hfan ▸ hi.fanEnd hf) i (copy_lt hi (by rw [hcp]; rfl))
        rw [hcp] at this; simp [copyEnded] at this
    exact ⟨_, .pass i x t hi.alive hcp ht ho (iter_room hi ht hcp), rfl⟩

/-- The shard's goroutine has had the lock. -/
def snapLocked : Snap E → Bool
  | .absent | .lock => false
  | _ => true

/-- What shard `i` held when its goroutine got the lock was in it at a moment of the call. -/
theorem iter_seen {n : Nat} {items : Nat → List E} {ls : List (Label E)} {s : State E} (h : Steps (IterChan.Step n n) (start items n) ls s) (i : Nat) (hl : snapLocked (s.snap i) = true) :
    ∃ l1 l2 u, ls = l1 ++ l2 ∧ Steps (IterChan.Step n n) (start items n) l1 u ∧ Steps (IterChan.Step n n) u l2 s ∧ (∀ t, u.main ≠ .returned t) ∧ u.items i = s.seen i := by
  suffices H : ∀ ls s, Steps (IterChan.Step n n) (start items n) ls s → snapLocked (s.snap i) = true →
      ∃ l1 l2 u, ls = l1 ++ l2 ∧ Steps (IterChan.Step n n) (start items n) l1 u ∧ Steps (IterChan.Step n n) u l2 s ∧ (∀ t, u.main ≠ .returned t) ∧ u.items i = s.seen i from H ls s h hl
  clear h hl s ls
  intro ls
  induction hlen : ls.length generalizing ls with
  | zero =>
    intro s h hl
    cases ls with
    | nil => cases h; cases hl
    | cons _ _ => cases hlen
  | succ k ih =>
    intro s h hl
    obtain ⟨l0, a, rfl⟩ : ∃ l0 a, ls = l0 ++ [a] := by
      rcases List.eq_nil_or_concat ls with e | ⟨l0, a, e⟩
      · subst e; cases hlen
      · exact ⟨l0, a, by simpa using e⟩
    obtain ⟨v, h1, h2⟩ := h.unsnoc
    by_cases hv : snapLocked (v.snap i) = true
    · obtain ⟨l1, l2, u, e1, e2, e3, e4, e5⟩ := ih l0 (by simpa using hlen) v h1 hv
      refine ⟨l1, l2 ++ [a], u, by rw [e1, List.append_assoc], e2, e3.snoc h2, e4, ?_⟩
      rw [e5]
      cases h2 <;> try rfl
      rename_i j _ hj _
      by_cases e : i = j
      · subst e; rw [hj] at hv; cases hv
      · exact (upd_ne _ _ e).symm
    · refine ⟨l0, [a], v, rfl, h1, .cons h2 (.nil _), ?_, ?_⟩
      · intro t ht
        have hinv := iterInv_run h1
        have hw := (hinv.total t ht).1
        by_cases hi : i < n
        · have := pending_of_wg hinv hw hi
          cases hsn : v.snap i <;> rw [hsn] at hv this <;> simp [snapLocked, snapPending] at hv this
        · have := (iterInv_run h).spawned i
          have h3 := (iterInv_run h).mainLe
          have h4 : snapOn (s.snap i) = true := by cases hsn : s.snap i <;> rw [hsn] at hl <;> first | rfl | cases hl
          have := this.1 h4
          omega
      · cases h2 <;> (simp only [upd] at hl ⊢; try (split at hl <;> simp_all [snapLocked])) <;> first | (exact absurd hl hv) | simp_all

/-- **C119** (what is read): what the caller has read of a shard, in the order it has read it, is the beginning of what the shard held at one moment between the call of `IterBuffered` and its return; once the channel is closed and empty it is all of it.
Nothing else is read. -/
theorem C119_content {n : Nat} {items : Nat → List E} {ls : List (Label E)} {s : State E} (h : Steps (IterChan.Step n n) (start items n) ls s) :
    (∀ p, p ∈ s.taken → p.1 < n) ∧
    ∀ i, i < n → ∃ l1 l2 u, ls = l1 ++ l2 ∧ Steps (IterChan.Step n n) (start items n) l1 u ∧ Steps (IterChan.Step n n) u l2 s ∧ (∀ t, u.main ≠ .returned t) ∧
      ofShard s.taken i <+: u.items i ∧ (s.outClosed = true → s.out = [] → ofShard s.taken i = u.items i) := by
  have hinv := iterInv_run h
  refine ⟨fun p hp => hinv.tags p (List.mem_append_left _ hp), fun i hi => ?_⟩
  have hs := hinv.shard i
  have hend : s.outClosed = true → copyEnded (s.copy i) = true := by
    intro ho
    have hf := hinv.closed.1 ho
    have := sumBelow_zero (hinv.fwg (by rw [hf]; rfl) ▸ hinv.fanEnd hf) i hi
    cases hc : copyEnded (s.copy i)
    · rw [hc] at this; simp at this
    · rfl
  by_cases hl : snapLocked (s.snap i) = true
  · obtain ⟨l1, l2, u, e1, e2, e3, e4, e5⟩ := iter_seen h i hl
    refine ⟨l1, l2, u, e1, e2, e3, e4, ?_, ?_⟩
    · rw [e5]
      have hpre : ofShard (sentAll s) i <+: s.seen i := by
        cases hsn : s.snap i <;> rw [hsn] at hs hl <;> simp only [ShardOk, snapLocked, reduceCtorEq] at hs hl
        · rw [hs.2.1]; exact List.nil_prefix
        · rw [hs.2.1]; exact List.nil_prefix
        · obtain ⟨_, b, _, h2⟩ := hs; rw [h2]; simp
        · obtain ⟨_, b, _, h2⟩ := hs; rw [h2]; simp
        · obtain ⟨b, _, h2, _⟩ := hs; rw [h2]; simp
      refine List.IsPrefix.trans ?_ hpre
      unfold sentAll; rw [ofShard_append]; exact List.prefix_append _ _
    · intro ho hn
      have hc := hend ho
      rw [e5]
      have hce : s.copy i = .ended := by cases hcp : s.copy i <;> rw [hcp] at hc <;> first | rfl | cases hc
      rw [hce] at hs
      have hst : sentAll s = s.taken := by simp [sentAll, hn]
      cases hsn : s.snap i <;> rw [hsn] at hs hl <;> simp only [ShardOk, snapLocked, reduceCtorEq, and_false, false_and, ne_eq, not_true] at hs hl
      obtain ⟨b, _, h2, h3⟩ := hs
      rw [h2, h3 trivial, hst]; simp [copyHand]
  · refine ⟨[], ls, start items n, rfl, .nil _, h, (fun t ht => by cases ht), ?_, fun ho _ => ?_⟩
    · have : ofShard (sentAll s) i = [] := by
        cases hsn : s.snap i <;> rw [hsn] at hs hl <;> simp only [ShardOk, snapLocked, not_true] at hs hl
        · exact hs.2.1
        · exact hs.2.1
      unfold sentAll at this
      rw [ofShard_append, List.append_eq_nil_iff] at this
      rw [this.1]; exact List.nil_prefix
    · have hc := hend ho
      have : s.copy i = .absent := by
        cases hsn : s.snap i <;> rw [hsn] at hs hl <;> simp only [ShardOk, snapLocked, not_true] at hs hl
        · exact hs.2.2
        · exact hs.2.2
      rw [this] at hc; cases hc

end Zinx.Props
