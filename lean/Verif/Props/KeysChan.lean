import Verif.Model.KeysChan
import Verif.Props.IterChanLive

/-!
# `Keys` returns (C126)
-/

namespace Zinx.Props

open Zinx.KeysChan

variable {E : Type}

/-- The shard's goroutine has been started. -/
def keyOn : KeysChan.Shard E → Bool
  | .absent => false
  | _ => true

/-- It has not called `wg.Done`. -/
def keyPending : KeysChan.Shard E → Nat
  | .ended => 0
  | _ => 1

/-- How many goroutines have been started. -/
def closerAt (n : Nat) : Closer → Nat
  | .spawn j => j
  | _ => n

/-- What has been sent. -/
def keySent (s : KeysChan.State E) : List (Nat × E) := s.keys ++ s.buf

/-- What has been sent of a shard, and the lock. -/
def KeyOk (sh : KeysChan.Shard E) (seen items sent : List E) (w : Bool) : Prop :=
  match sh with
  | .absent | .lock => sent = []
  | .send rest => sent ++ rest = seen ∧ items = seen ∧ w = false
  | .unlocked | .ended => sent = seen

/-- What holds at all times if `ShardCount` is the number of shards. -/
structure KeyInv (n cap : Nat) (s : KeysChan.State E) : Prop where
  alive : s.dead = false
  room : s.buf.length ≤ cap
  le : closerAt n s.closer ≤ n
  on : ∀ i, keyOn (s.shard i) = true ↔ i < closerAt n s.closer
  wg : s.wg = sumBelow (fun i => keyPending (s.shard i)) n
  zero : s.closer = .ended → s.wg = 0
  closed : s.closed = true ↔ s.closer = .ended
  ret : s.returned = true → s.closed = true ∧ s.buf = []
  tags : ∀ p, p ∈ keySent s → p.1 < n
  shard : ∀ i, KeyOk (s.shard i) (s.seen i) (s.items i) (ofShard (keySent s) i) (s.writer i)

theorem keyInv_start (n cap : Nat) (items : Nat → List E) : KeyInv n cap (KeysChan.start items n) where
  alive := rfl
  room := Nat.zero_le _
  le := Nat.zero_le _
  on := fun i => by simp [KeysChan.start, keyOn, closerAt]
  wg := (sumBelow_ones n).symm
  zero := fun h => by cases h
  closed := by simp [KeysChan.start]
  ret := fun h => by cases h
  tags := fun p hp => by cases hp
  shard := fun i => rfl

theorem key_lt {n cap : Nat} {s : KeysChan.State E} (h : KeyInv n cap s) {i : Nat} (hs : keyOn (s.shard i) = true) : i < n := by
  have := (h.on i).1 hs
  have := h.le
  omega

/-- All goroutines have ended when the channel is closed. -/
theorem key_closed {n cap : Nat} {s : KeysChan.State E} (h : KeyInv n cap s) (hc : s.closed = true) {i : Nat} (hi : i < n) : s.shard i = .ended := by
  have hw := h.zero (h.closed.1 hc)
  rw [h.wg] at hw
  have := sumBelow_zero hw i hi
  cases hs : s.shard i <;> rw [hs] at this <;> first | rfl | cases this

theorem key_open {n cap : Nat} {s : KeysChan.State E} (h : KeyInv n cap s) {i : Nat} (hon : keyOn (s.shard i) = true) (hne : s.shard i ≠ .ended) : s.closed = false := by
  cases hc : s.closed
  · rfl
  · exact absurd (key_closed h hc (key_lt h hon)) hne

/-- A change of one shard's goroutine that leaves the WaitGroup. -/
theorem key_set {n cap : Nat} {s : KeysChan.State E} (h : KeyInv n cap s) (i : Nat) (sh : KeysChan.Shard E) (hon : keyOn (s.shard i) = true) (hne : s.shard i ≠ .ended) (hon2 : keyOn sh = true) (hne2 : sh ≠ .ended) :
    (∀ j, keyOn (IterChan.upd s.shard i sh j) = true ↔ j < closerAt n s.closer) ∧ s.wg = sumBelow (fun j => keyPending (IterChan.upd s.shard i sh j)) n := by
  refine ⟨fun j => ?_, ?_⟩
  · by_cases e : j = i
    · subst e; rw [upd_self, hon2, ← h.on j, hon]
    · rw [upd_ne _ _ e]; exact h.on j
  · have h1 := count_upd s.shard keyPending sh (key_lt h hon)
    have h2 : keyPending (s.shard i) = 1 := by cases hs : s.shard i <;> first | rfl | exact absurd hs hne
    have h3 : keyPending sh = 1 := by cases sh <;> first | rfl | exact absurd rfl hne2
    rw [h.wg]; omega

theorem keyInv_step {n cap : Nat} {s t : KeysChan.State E} {l : KeysChan.Label E} (h : KeyInv n cap s) (hs : KeysChan.Step n cap s l t) : KeyInv n cap t := by
  cases hs with
  | spawn j hd hc hj =>
    have hj0 : s.shard j = .absent := by
      have := (h.on j).1
      rw [hc] at this
      cases hs : s.shard j <;> first | rfl | exact absurd (this (by rw [hs]; rfl)) (Nat.lt_irrefl j)
    refine ⟨h.alive, h.room, hj, fun i => ?_, ?_, (fun hf => by cases hf), ?_, h.ret, h.tags, shard_at (i := j) ?_ fun i hi => ?_⟩
    · have := h.on i
      rw [hc] at this
      by_cases e : i = j
      · subst e; simp [upd_self, keyOn, closerAt]
      · dsimp only
        rw [upd_ne _ _ e, this]; simp [closerAt]; omega
    · have h1 := count_upd s.shard keyPending .lock hj
      rw [hj0] at h1
      show s.wg = _
      rw [h.wg]; simp only [keyPending] at h1 ⊢; omega
    · have := h.closed
      rw [hc] at this
      simpa using this
    · have := h.shard j
      rw [hj0] at this
      dsimp only
      rw [upd_self]; exact this
    · dsimp only
      rw [upd_ne _ _ hi]; exact h.shard i
  | spawned hd hc =>
    refine ⟨h.alive, h.room, Nat.le_refl n, fun i => ?_, h.wg, (fun hf => by cases hf), ?_, h.ret, h.tags, h.shard⟩
    · have := h.on i
      rw [hc] at this; exact this
    · have := h.closed
      rw [hc] at this
      simpa using this
  | close hd hc hw =>
    refine ⟨h.alive, h.room, Nat.le_refl n, fun i => ?_, h.wg, fun _ => hw, by simp, fun hr => ⟨rfl, (h.ret hr).2⟩, h.tags, h.shard⟩
    have := h.on i
    rw [hc] at this; exact this
  | rlock i hd hi hw =>
    have h0 : KeyOk (s.shard i) (s.seen i) (s.items i) (ofShard (keySent s) i) (s.writer i) := h.shard i
    rw [hi] at h0
    obtain ⟨h1, h2⟩ := key_set h i (.send (s.items i)) (by rw [hi]; rfl) (by rw [hi]; simp) rfl (by simp)
    refine ⟨h.alive, h.room, h.le, h1, h2, h.zero, h.closed, h.ret, h.tags, shard_at (i := i) ?_ fun j hj => ?_⟩
    · dsimp only
      rw [upd_self, upd_self]
      refine ⟨?_, rfl, hw⟩
      show ofShard (keySent s) i ++ _ = _
      rw [show ofShard (keySent s) i = [] from h0]; rfl
    · dsimp only
      rw [upd_ne _ _ hj, upd_ne _ _ hj]; exact h.shard j
  | send i x rest hd hi ho hr =>
    have h0 : KeyOk (s.shard i) (s.seen i) (s.items i) (ofShard (keySent s) i) (s.writer i) := h.shard i
    rw [hi] at h0
    obtain ⟨h1, h2⟩ := key_set h i (.send rest) (by rw [hi]; rfl) (by rw [hi]; simp) rfl (by simp)
    have hk : keySent { s with shard := IterChan.upd s.shard i (.send rest), buf := s.buf ++ [(i, x)] } = keySent s ++ [(i, x)] := by simp [keySent]
    refine ⟨h.alive, by simp; omega, h.le, h1, h2, h.zero, h.closed, fun hr => ?_, fun p hp => ?_, shard_at (i := i) ?_ fun j hj => ?_⟩
    · have := (h.ret hr).1; rw [ho] at this; cases this
    · rw [hk, List.mem_append] at hp
      rcases hp with hp | hp
      · exact h.tags p hp
      · rw [List.mem_singleton] at hp; rw [hp]; exact key_lt h (by rw [hi]; rfl)
    · dsimp only
      rw [upd_self, hk, ofShard_append, ofShard_one, if_pos rfl]
      refine ⟨?_, h0.2⟩
      rw [← h0.1]; simp
    · dsimp only
      rw [upd_ne _ _ hj, hk, ofShard_append, ofShard_one, if_neg (fun e => hj e.symm), List.append_nil]; exact h.shard j
  | hand i x rest hd hi ho hb hr =>
    have h0 : KeyOk (s.shard i) (s.seen i) (s.items i) (ofShard (keySent s) i) (s.writer i) := h.shard i
    rw [hi] at h0
    obtain ⟨h1, h2⟩ := key_set h i (.send rest) (by rw [hi]; rfl) (by rw [hi]; simp) rfl (by simp)
    have hk : keySent { s with shard := IterChan.upd s.shard i (.send rest), keys := s.keys ++ [(i, x)] } = keySent s ++ [(i, x)] := by simp [keySent, hb]
    refine ⟨h.alive, h.room, h.le, h1, h2, h.zero, h.closed, fun hr => ?_, fun p hp => ?_, shard_at (i := i) ?_ fun j hj => ?_⟩
    · have := (h.ret hr).1; rw [ho] at this; cases this
    · rw [hk, List.mem_append] at hp
      rcases hp with hp | hp
      · exact h.tags p hp
      · rw [List.mem_singleton] at hp; rw [hp]; exact key_lt h (by rw [hi]; rfl)
    · dsimp only
      rw [upd_self, hk, ofShard_append, ofShard_one, if_pos rfl]
      refine ⟨?_, h0.2⟩
      rw [← h0.1]; simp
    · dsimp only
      rw [upd_ne _ _ hj, hk, ofShard_append, ofShard_one, if_neg (fun e => hj e.symm), List.append_nil]; exact h.shard j
  | sendPanic i x rest hd hi ho =>
    have := key_open h (i := i) (by rw [hi]; rfl) (by rw [hi]; simp)
    rw [ho] at this; cases this
  | runlock i hd hi =>
    have h0 : KeyOk (s.shard i) (s.seen i) (s.items i) (ofShard (keySent s) i) (s.writer i) := h.shard i
    rw [hi] at h0
    obtain ⟨h1, h2⟩ := key_set h i .unlocked (by rw [hi]; rfl) (by rw [hi]; simp) rfl (by simp)
    refine ⟨h.alive, h.room, h.le, h1, h2, h.zero, h.closed, h.ret, h.tags, shard_at (i := i) ?_ fun j hj => ?_⟩
    · dsimp only
      rw [upd_self]
      have := h0.1
      rw [List.append_nil] at this; exact this
    · dsimp only
      rw [upd_ne _ _ hj]; exact h.shard j
  | done i hd hi hw =>
    have h0 : KeyOk (s.shard i) (s.seen i) (s.items i) (ofShard (keySent s) i) (s.writer i) := h.shard i
    rw [hi] at h0
    have hon : keyOn (s.shard i) = true := by rw [hi]; rfl
    refine ⟨h.alive, h.room, h.le, fun j => ?_, ?_, fun hc => ?_, h.closed, h.ret, h.tags, shard_at (i := i) ?_ fun j hj => ?_⟩
    · by_cases e : j = i
      · subst e
        dsimp only
        rw [upd_self, ← h.on j, hon]; simp [keyOn]
      · dsimp only
        rw [upd_ne _ _ e]; exact h.on j
    · have h1 := count_upd s.shard keyPending .ended (key_lt h hon)
      rw [hi] at h1
      have := h.wg
      simp only [keyPending] at h1 this ⊢; omega
    · have := h.zero hc; show s.wg - 1 = 0; omega
    · dsimp only
      rw [upd_self]; exact h0
    · dsimp only
      rw [upd_ne _ _ hj]; exact h.shard j
  | donePanic i hd hi hw =>
    have hon : keyOn (s.shard i) = true := by rw [hi]; rfl
    have := sumBelow_zero (h.wg ▸ hw) i (key_lt h hon)
    rw [hi] at this; cases this
  | take x rest hd hr hb =>
    have hk : keySent { s with buf := rest, keys := s.keys ++ [x] } = keySent s := by simp [keySent, hb]
    refine ⟨h.alive, by have := h.room; rw [hb] at this; simp at this ⊢; omega, h.le, h.on, h.wg, h.zero, h.closed, fun h1 => ?_, fun p hp => h.tags p (by rwa [hk] at hp), fun i => ?_⟩
    · have h1 : s.returned = true := h1
      rw [hr] at h1; cases h1
    · rw [hk]; exact h.shard i
  | ret hd hr hb ho => exact ⟨h.alive, h.room, h.le, h.on, h.wg, h.zero, h.closed, fun _ => ⟨ho, hb⟩, h.tags, h.shard⟩
  | lockW i hd hw hr =>
    refine ⟨h.alive, h.room, h.le, h.on, h.wg, h.zero, h.closed, h.ret, h.tags, shard_at (i := i) ?_ fun j hj => ?_⟩
    · have := h.shard i
      dsimp only
      rw [upd_self]
      show KeyOk (s.shard i) (s.seen i) (s.items i) (ofShard (keySent s) i) true
      cases hs : s.shard i <;> rw [hs] at this hr <;> first | exact this | cases hr
    · dsimp only
      rw [upd_ne _ _ hj]; exact h.shard j
  | unlockW i k hd hw =>
    refine ⟨h.alive, h.room, h.le, h.on, h.wg, h.zero, h.closed, h.ret, h.tags, shard_at (i := i) ?_ fun j hj => ?_⟩
    · have := h.shard i
      dsimp only
      rw [upd_self, upd_self]
      show KeyOk (s.shard i) (s.seen i) k (ofShard (keySent s) i) false
      cases hs : s.shard i <;> rw [hs] at this <;> first | exact this | (have := this.2.2; rw [hw] at this; cases this)
    · dsimp only
      rw [upd_ne _ _ hj, upd_ne _ _ hj]; exact h.shard j

theorem keyInv_run {n cap : Nat} {items : Nat → List E} {ls : List (KeysChan.Label E)} {s : KeysChan.State E} (h : Steps (KeysChan.Step n cap) (KeysChan.start items n) ls s) : KeyInv n cap s :=
  h.invariant (P := KeyInv n cap) (fun _ _ _ hi hs => keyInv_step hi hs) (keyInv_start n cap items)

/-- Every goroutine of the call goes on if it can, a shard's goroutine gets the lock or a place in the channel if there is one again and again, and whoever has the write lock of a shard gives it back. -/
structure KeyFair {n cap : Nat} (e : Exec (KeysChan.Step (E := E) n cap)) : Prop where
  closer : e.WeakFair (· = .closer)
  shard : ∀ i, e.StrongFair (· = .shard i)
  read : e.WeakFair (· = .read)
  unlock : ∀ i, e.WeakFair fun l => ∃ k, l = .unlockW i k

/-- Only its own steps change a shard's goroutine once it has been started. -/
theorem key_frame {n cap : Nat} {s t : KeysChan.State E} {l : KeysChan.Label E} (h : KeyInv n cap s) (hs : KeysChan.Step n cap s l t) {i : Nat} (hon : keyOn (s.shard i) = true) (hl : l ≠ .shard i) : t.shard i = s.shard i := by
  have hsp := (h.on i).1 hon
  cases hs <;> first | rfl | (simp only [IterChan.upd]; split <;> simp_all [closerAt])

/-- What a shard's goroutine does next. -/
def keyNext : KeysChan.Shard E → KeysChan.Shard E → Prop
  | .lock, .send _ => True
  | .send (_ :: r), .send r' => r' = r
  | .send [], .unlocked => True
  | .unlocked, .ended => True
  | _, _ => False

theorem key_next {n cap : Nat} {s t : KeysChan.State E} {i : Nat} (h : KeyInv n cap s) (hs : KeysChan.Step n cap s (.shard i) t) : keyNext (s.shard i) (t.shard i) := by
  have ht := (keyInv_step h hs).alive
  cases hs <;> simp_all [IterChan.upd, keyNext]

theorem keyEnded_step {n cap : Nat} {s t : KeysChan.State E} {l : KeysChan.Label E} (h : KeyInv n cap s) (hs : KeysChan.Step n cap s l t) {i : Nat} (hp : s.shard i = .ended) : t.shard i = .ended := by
  by_cases hl : l = .shard i
  · subst hl
    have := key_next h hs
    rw [hp] at this; cases this
  · rw [key_frame h hs (by rw [hp]; rfl) hl]; exact hp

theorem keyOn_step {n cap : Nat} {s t : KeysChan.State E} {l : KeysChan.Label E} (h : KeyInv n cap s) (hs : KeysChan.Step n cap s l t) {i : Nat} (hp : keyOn (s.shard i) = true) : keyOn (t.shard i) = true := by
  by_cases hl : l = .shard i
  · subst hl
    have := key_next h hs
    cases hx : t.shard i <;> first | rfl | (rw [hx] at this; cases hy : s.shard i <;> rw [hy] at this <;> simp [keyNext] at this)
  · rw [key_frame h hs hp hl]; exact hp

section
variable {n cap : Nat} {e : Exec (KeysChan.Step (E := E) n cap)}

/-- The lock of a shard is free at some time if its writers give it back. -/
theorem key_free (hf : KeyFair e) (hi : ∀ k, KeyInv n cap (e.run k)) (i k : Nat) : ∃ m, k ≤ m ∧ (e.run m).writer i = false := by
  cases hw : (e.run k).writer i
  · exact ⟨k, Nat.le_refl k, hw⟩
  · refine e.leads_weak (hf.unlock i) (P := fun s => KeyInv n cap s ∧ s.writer i = true) (Q := fun s => s.writer i = false) ?_ ?_ ?_ ⟨hi k, hw⟩
    · rintro s l t ⟨h, hp⟩ hs
      have ht := keyInv_step h hs
      by_cases hx : t.writer i = true
      · exact .inl ⟨ht, hx⟩
      · exact .inr (by simpa using hx)
    · rintro s l t ⟨h, hp⟩ hs ⟨k, rfl⟩
      cases hs; simp [IterChan.upd]
    · rintro s ⟨h, hp⟩
      exact ⟨_, _, ⟨[], rfl⟩, .unlockW i [] h.alive hp⟩

/-- While the channel is open there is room in it at some time, or it is empty: the caller reads. -/
theorem key_room (hf : KeyFair e) (hi : ∀ k, KeyInv n cap (e.run k)) (k : Nat) (hopen : ∀ m, k ≤ m → (e.run m).closed = false) : ∃ m, k ≤ m ∧ ((e.run m).buf.length < cap ∨ (e.run m).buf = []) := by
  apply Classical.byContradiction
  intro hno
  have hret : ∀ m, k ≤ m → (e.run m).returned = false := by
    intro m hm
    cases hr : (e.run m).returned
    · rfl
    · have := ((hi m).ret hr).1
      rw [hopen m hm] at this; cases this
  have hen : ∀ m, k ≤ m → Enabled (KeysChan.Step n cap) (· = .read) (e.run m) := by
    intro m hm
    cases hb : (e.run m).buf with
    | nil => exact absurd ⟨m, hm, .inr hb⟩ hno
    | cons x rest => exact ⟨_, _, rfl, .take x rest (hi m).alive (hret m hm) hb⟩
  obtain ⟨m, l, hm, ha, rfl⟩ := hf.read k hen
  have hn := e.next m
  rw [ha] at hn
  refine hno ⟨m + 1, by omega, ?_⟩
  have hroom := (hi m).room
  have ho := hopen m hm
  generalize e.run m = s at hn hroom ho
  generalize e.run (m + 1) = t at hn
  cases hn with
  | take x rest hd hr hb => rw [hb] at hroom; exact .inl (by simp at hroom ⊢; omega)
  | ret hd hr hb hc => rw [ho] at hc; cases hc

/-- A shard's goroutine that has not ended goes on. -/
theorem key_moves (hf : KeyFair e) (hi : ∀ k, KeyInv n cap (e.run k)) {i k : Nat} {sh : KeysChan.Shard E} (h0 : (e.run k).shard i = sh) (hon : keyOn sh = true) (hne : sh ≠ .ended) :
    ∃ m, k ≤ m ∧ keyNext sh ((e.run m).shard i) := by
  refine e.leads_strong (hf.shard i) (P := fun s => KeyInv n cap s ∧ s.shard i = sh) (Q := fun s => keyNext sh (s.shard i)) ?_ ?_ ?_ ⟨hi k, h0⟩
  · rintro s l t ⟨h, hp⟩ hs
    by_cases hl : l = .shard i
    · subst hl
      exact .inr (hp ▸ key_next h hs)
    · exact .inl ⟨keyInv_step h hs, by rw [key_frame h hs (by rw [hp]; exact hon) hl]; exact hp⟩
  · rintro s l t ⟨h, hp⟩ hs rfl
    exact hp ▸ key_next h hs
  · intro k hk
    have hopen : ∀ m, k ≤ m → (e.run m).closed = false := fun m hm => key_open (hk m hm).1 (i := i) (by rw [(hk m hm).2]; exact hon) (by rw [(hk m hm).2]; exact hne)
    match sh, hon, hne, hk with
    | .lock, _, _, hk =>
      obtain ⟨m, hm, hw⟩ := key_free hf hi i k
      exact ⟨m, hm, _, _, rfl, .rlock i (hk m hm).1.alive (hk m hm).2 hw⟩
    | .send (x :: r), _, _, hk =>
      obtain ⟨m, hm, hr⟩ := key_room hf hi k hopen
      refine ⟨m, hm, ?_⟩
      rcases hr with hr | hr
      · exact ⟨_, _, rfl, .send i x r (hk m hm).1.alive (hk m hm).2 (hopen m hm) hr⟩
      · refine ⟨_, _, rfl, .hand i x r (hk m hm).1.alive (hk m hm).2 (hopen m hm) hr ?_⟩
        cases hr : (e.run m).returned
        · rfl
        · have := ((hi m).ret hr).1
          rw [hopen m hm] at this; cases this
    | .send [], _, _, hk => exact ⟨k, Nat.le_refl k, _, _, rfl, .runlock i (hk k (Nat.le_refl k)).1.alive (hk k (Nat.le_refl k)).2⟩
    | .unlocked, _, _, hk =>
      refine ⟨k, Nat.le_refl k, _, _, rfl, .done i (hk k (Nat.le_refl k)).1.alive (hk k (Nat.le_refl k)).2 ?_⟩
      have hlt : i < n := key_lt (hi k) (by rw [(hk k (Nat.le_refl k)).2]; rfl)
      rcases Nat.eq_zero_or_pos (e.run k).wg with hw | hw
      · rw [(hi k).wg] at hw
        have := sumBelow_zero hw i hlt
        rw [(hk k (Nat.le_refl k)).2] at this; cases this
      · exact hw

/-- A shard's goroutine that has been started ends. -/
theorem key_ends (hf : KeyFair e) (hi : ∀ k, KeyInv n cap (e.run k)) {i k : Nat} (hon : keyOn ((e.run k).shard i) = true) : ∃ m, k ≤ m ∧ (e.run m).shard i = .ended := by
  have h4 : ∀ k, (e.run k).shard i = .unlocked → ∃ m, k ≤ m ∧ (e.run m).shard i = .ended := by
    intro k hk
    obtain ⟨m, hm, h⟩ := key_moves hf hi hk rfl (by simp)
    refine ⟨m, hm, ?_⟩
    cases hc : (e.run m).shard i <;> rw [hc] at h <;> simp [keyNext] at h ⊢
  have h3 : ∀ r k, (e.run k).shard i = .send r → ∃ m, k ≤ m ∧ (e.run m).shard i = .ended := by
    intro r
    induction r with
    | nil =>
      intro k hk
      obtain ⟨m, hm, h⟩ := key_moves hf hi hk rfl (by simp)
      have : (e.run m).shard i = .unlocked := by cases hc : (e.run m).shard i <;> rw [hc] at h <;> simp [keyNext] at h ⊢
      obtain ⟨m2, hm2, h2⟩ := h4 m this
      exact ⟨m2, by omega, h2⟩
    | cons x r ih =>
      intro k hk
      obtain ⟨m, hm, h⟩ := key_moves hf hi hk rfl (by simp)
      have : (e.run m).shard i = .send r := by cases hc : (e.run m).shard i <;> rw [hc] at h <;> simp [keyNext] at h ⊢; exact h
      obtain ⟨m2, hm2, h2⟩ := ih m this
      exact ⟨m2, by omega, h2⟩
  cases hc : (e.run k).shard i with
  | absent => rw [hc] at hon; cases hon
  | lock =>
    obtain ⟨m, hm, h⟩ := key_moves hf hi hc rfl (by simp)
    have : ∃ r, (e.run m).shard i = .send r := by cases hc : (e.run m).shard i <;> rw [hc] at h <;> simp [keyNext] at h ⊢
    obtain ⟨r, hr⟩ := this
    obtain ⟨m2, hm2, h2⟩ := h3 r m hr
    exact ⟨m2, by omega, h2⟩
  | send r => exact h3 r k hc
  | unlocked => exact h4 k hc
  | ended => exact ⟨k, Nat.le_refl k, hc⟩

/-- All goroutines of shards are started. -/
theorem key_spawned (hf : KeyFair e) (hi : ∀ k, KeyInv n cap (e.run k)) (k : Nat) : ∃ m, k ≤ m ∧ ∀ j, (e.run m).closer ≠ .spawn j := by
  by_cases h0 : ∀ j, (e.run k).closer ≠ .spawn j
  · exact ⟨k, Nat.le_refl k, h0⟩
  · obtain ⟨j, hj⟩ := Classical.not_forall.1 h0
    refine e.leads_weak_dec hf.closer (P := fun s => KeyInv n cap s ∧ ∃ j, s.closer = .spawn j) (Q := fun s => ∀ j, s.closer ≠ .spawn j) (fun s => n - closerAt n s.closer) ?_ ?_ ?_ ⟨hi k, j, Classical.not_not.1 hj⟩
    · rintro s l t ⟨h, j, hj⟩ hs
      have ht := keyInv_step h hs
      cases hs <;> first | exact .inl ⟨⟨ht, j, hj⟩, Nat.le_refl _⟩ | (simp only [closerAt]; simp_all) | skip
      all_goals omega
    · rintro s l t ⟨h, j, hj⟩ hs rfl
      have ht := keyInv_step h hs
      cases hs with
      | spawn j' _ hm hj' => exact .inl ⟨⟨ht, j' + 1, rfl⟩, by rw [hm]; simp only [closerAt]; omega⟩
      | spawned => exact .inr fun j hj => by cases hj
      | close => exact .inr fun j hj => by cases hj
    · rintro s ⟨h, j, hj⟩
      have := h.le
      rw [hj] at this
      simp only [closerAt] at this
      by_cases e1 : j < n
      · exact ⟨_, _, rfl, .spawn j h.alive hj e1⟩
      · have hjn : j = n := by omega
        rw [hjn] at hj
        exact ⟨_, _, rfl, .spawned h.alive hj⟩

/-- The channel is closed. -/
theorem key_closes (hf : KeyFair e) (hi : ∀ k, KeyInv n cap (e.run k)) : ∃ m, (e.run m).closer = .ended := by
  obtain ⟨m, hm, h1⟩ := key_spawned hf hi 0
  have hat : closerAt n (e.run m).closer = n := by cases hc : (e.run m).closer <;> first | exact absurd hc (h1 _) | rfl
  have hon : ∀ i, i < n → ∀ k, m ≤ k → keyOn ((e.run k).shard i) = true := fun i hin k hk =>
    exec_on e hi (P := fun s => keyOn (s.shard i) = true) (fun s l t h hs hp => keyOn_step h hs hp) (((hi m).on i).2 (by rw [hat]; exact hin)) k hk
  obtain ⟨m2, hm2, h2⟩ := exec_all e hi (P := fun i s => s.shard i = .ended) (fun i s l t h hs hp => keyEnded_step h hs hp) n (fun i hin k hk => key_ends hf hi (hon i hin k hk)) m (Nat.le_refl m)
  rcases Classical.em ((e.run m2).closer = .ended) with hc | hc
  · exact ⟨m2, hc⟩
  · have hwait : (e.run m2).closer = .wait := by
      have := exec_on e hi (P := fun s => ∀ j, s.closer ≠ .spawn j) (fun s l t h hs hp => by cases hs <;> simp_all) h1 m2 hm2
      cases hx : (e.run m2).closer <;> first | exact absurd hx (this _) | exact absurd hx hc | rfl
    obtain ⟨m3, _, h3⟩ := e.leads_weak hf.closer (P := fun s => KeyInv n cap s ∧ (∀ i, i < n → s.shard i = .ended) ∧ s.closer = .wait) (Q := fun s => s.closer = .ended) (n := m2)
      (by
        rintro s l t ⟨h, hp, hm⟩ hs
        have ht := keyInv_step h hs
        have h4 : ∀ i, i < n → t.shard i = .ended := fun i hin => keyEnded_step h hs (hp i hin)
        have h5 : t.closer = .wait ∨ t.closer = .ended := by clear ht h4; cases hs <;> simp_all
        rcases h5 with h5 | h5
        · exact .inl ⟨ht, h4, h5⟩
        · exact .inr h5)
      (by
        rintro s l t ⟨h, hp, hm⟩ hs rfl
        clear hp
        cases hs <;> simp_all)
      (by
        rintro s ⟨h, hp, hm⟩
        refine ⟨_, _, rfl, .close h.alive hm ?_⟩
        rw [h.wg]
        exact sumBelow_of_zero fun i hin => by rw [hp i hin]; rfl) ⟨hi m2, h2, hwait⟩
    exact ⟨m3, h3⟩

/-- `Keys` returns. -/
theorem key_returns (hf : KeyFair e) (hi : ∀ k, KeyInv n cap (e.run k)) : ∃ m, (e.run m).returned = true := by
  obtain ⟨m, hm⟩ := key_closes hf hi
  cases hr : (e.run m).returned
  · obtain ⟨k, _, hk⟩ := e.leads_weak_dec hf.read (P := fun s => KeyInv n cap s ∧ s.closer = .ended ∧ s.returned = false) (Q := fun s => s.returned = true) (fun s => s.buf.length) (n := m)
      (by
        rintro s l t ⟨h, hc, hr⟩ hs
        have ht := keyInv_step h hs
        have hcl := h.closed.2 hc
        cases hs with
        | send i x rest hd hi ho => rw [ho] at hcl; cases hcl
        | hand i x rest hd hi ho => rw [ho] at hcl; cases hcl
        | take x rest hd hr' hb => exact .inl ⟨⟨ht, hc, hr⟩, by rw [hb]; simp⟩
        | ret => exact .inr rfl
        | spawn j hd hx => rw [hc] at hx; cases hx
        | spawned hd hx => rw [hc] at hx; cases hx
        | close => exact .inl ⟨⟨ht, rfl, hr⟩, Nat.le_refl _⟩
        | _ => exact .inl ⟨⟨ht, hc, hr⟩, Nat.le_refl _⟩)
      (by
        rintro s l t ⟨h, hc, hr⟩ hs rfl
        have ht := keyInv_step h hs
        cases hs with
        | take x rest hd hr' hb => exact .inl ⟨⟨ht, hc, hr⟩, by rw [hb]; simp⟩
        | ret => exact .inr rfl)
      (by
        rintro s ⟨h, hc, hr⟩
        cases hb : s.buf with
        | nil => exact ⟨_, _, rfl, .ret h.alive hr hb (h.closed.2 hc)⟩
        | cons x rest => exact ⟨_, _, rfl, .take x rest h.alive hr hb⟩) ⟨hi m, hm, hr⟩
    exact ⟨k, hk⟩
  · exact ⟨m, hr⟩

end

/-- The shard's goroutine has had the lock. -/
def keyLocked : KeysChan.Shard E → Bool
  | .absent | .lock => false
  | _ => true

/-- What shard `i` held when its goroutine got the lock was in it at a moment of the call. -/
theorem key_seen {n cap : Nat} {items : Nat → List E} {ls : List (KeysChan.Label E)} {s : KeysChan.State E} (h : Steps (KeysChan.Step n cap) (KeysChan.start items n) ls s) (i : Nat) (hl : keyLocked (s.shard i) = true) :
    ∃ l1 l2 u, ls = l1 ++ l2 ∧ Steps (KeysChan.Step n cap) (KeysChan.start items n) l1 u ∧ Steps (KeysChan.Step n cap) u l2 s ∧ u.returned = false ∧ u.items i = s.seen i := by
  suffices H : ∀ k ls s, ls.length = k → Steps (KeysChan.Step n cap) (KeysChan.start items n) ls s → keyLocked (s.shard i) = true →
      ∃ l1 l2 u, ls = l1 ++ l2 ∧ Steps (KeysChan.Step n cap) (KeysChan.start items n) l1 u ∧ Steps (KeysChan.Step n cap) u l2 s ∧ u.returned = false ∧ u.items i = s.seen i from H _ ls s rfl h hl
  clear h hl s ls
  intro k
  induction k with
  | zero =>
    intro ls s hlen h hl
    cases ls with
    | nil => cases h; cases hl
    | cons _ _ => cases hlen
  | succ k ih =>
    intro ls s hlen h hl
    obtain ⟨l0, a, rfl⟩ : ∃ l0 a, ls = l0 ++ [a] := by
      rcases List.eq_nil_or_concat ls with e | ⟨l0, a, e⟩
      · subst e; cases hlen
      · exact ⟨l0, a, by simpa using e⟩
    obtain ⟨v, h1, h2⟩ := h.unsnoc
    by_cases hv : keyLocked (v.shard i) = true
    · obtain ⟨l1, l2, u, e1, e2, e3, e4, e5⟩ := ih l0 v (by simpa using hlen) h1 hv
      refine ⟨l1, l2 ++ [a], u, by rw [e1, List.append_assoc], e2, e3.snoc h2, e4, ?_⟩
      rw [e5]
      cases h2 <;> try rfl
      rename_i j _ hj _
      by_cases e : i = j
      · subst e; rw [hj] at hv; cases hv
      · exact (upd_ne _ _ e).symm
    · refine ⟨l0, [a], v, rfl, h1, .cons h2 (.nil _), ?_, ?_⟩
      · have hinv := keyInv_run h1
        have hon : i < n := key_lt (keyInv_run h) (i := i) (by cases hsn : s.shard i <;> rw [hsn] at hl <;> first | rfl | cases hl)
        cases hr : v.returned
        · rfl
        · have := key_closed hinv (hinv.ret hr).1 hon
          rw [this] at hv; exact absurd rfl hv
      · cases h2 <;> (simp only [IterChan.upd] at hl ⊢; try (split at hl <;> simp_all [keyLocked])) <;> first | (exact absurd hl hv) | simp_all

/-- **C126** (what is returned): there is no panic, and when `Keys` has returned, its result has of each shard exactly the keys, once each and in the order of the shard, that the shard held at one moment of the call, and nothing else; no goroutine
of the call is left and no lock is held by it. `cap` is whatever `Count` returned. -/
theorem C126_content {n cap : Nat} {items : Nat → List E} {ls : List (KeysChan.Label E)} {s : KeysChan.State E} (h : Steps (KeysChan.Step n cap) (KeysChan.start items n) ls s) :
    s.dead = false ∧ (s.returned = true → (∀ p, p ∈ s.keys → p.1 < n) ∧ s.closer = .ended ∧
      ∀ i, i < n → s.shard i = .ended ∧ ∃ l1 l2 u, ls = l1 ++ l2 ∧ Steps (KeysChan.Step n cap) (KeysChan.start items n) l1 u ∧ Steps (KeysChan.Step n cap) u l2 s ∧ u.returned = false ∧ ofShard s.keys i = u.items i) := by
  have hinv := keyInv_run h
  refine ⟨hinv.alive, fun hr => ?_⟩
  obtain ⟨hc, hb⟩ := hinv.ret hr
  refine ⟨fun p hp => hinv.tags p (List.mem_append_left _ hp), hinv.closed.1 hc, fun i hi => ?_⟩
  have he := key_closed hinv hc hi
  refine ⟨he, ?_⟩
  obtain ⟨l1, l2, u, e1, e2, e3, e4, e5⟩ := key_seen h i (by rw [he]; rfl)
  refine ⟨l1, l2, u, e1, e2, e3, e4, ?_⟩
  have := hinv.shard i
  rw [he] at this
  have h2 : ofShard (keySent s) i = s.seen i := this
  rw [e5, ← h2, keySent, hb, List.append_nil]

/-- **C126** (it returns): in every fair execution in which writers give the shard locks back, `Keys` returns, whatever `Count` said and whatever is added and removed meanwhile. -/
theorem C126_returns {n cap : Nat} {e : Exec (KeysChan.Step (E := E) n cap)} {items : Nat → List E} (hf : KeyFair e) (h0 : e.run 0 = KeysChan.start items n) : ∃ k, ∀ m, k ≤ m → (e.run m).returned = true ∧ (e.run m).dead = false := by
  have hi : ∀ k, KeyInv n cap (e.run k) := fun k => keyInv_run (items := items) (h0 ▸ e.steps k)
  obtain ⟨k, hk⟩ := key_returns hf hi
  refine ⟨k, fun m hm => ⟨?_, (hi m).alive⟩⟩
  refine exec_on e hi (P := fun s => s.returned = true) (fun s l t h hs hp => ?_) hk m hm
  cases hs <;> first | exact hp | rfl

/-- Once `Keys` has returned and no writer has a lock nothing of it can go on. -/
theorem keyFair_of_end {n cap : Nat} {e : Exec (KeysChan.Step (E := E) n cap)} {N : Nat} {s : KeysChan.State E} (hinv : KeyInv n cap s) (hend : ∀ k, N ≤ k → e.run k = s) (hr : s.returned = true) (hw : ∀ i, s.writer i = false) : KeyFair e := by
  obtain ⟨hc, hb⟩ := hinv.ret hr
  have hcl := hinv.closed.1 hc
  have hsh : ∀ i, s.shard i = .ended ∨ s.shard i = .absent := by
    intro i
    by_cases hi : i < n
    · exact .inl (key_closed hinv hc hi)
    · right
      have := hinv.on i
      rw [hcl] at this
      simp only [closerAt, hi, iff_false] at this
      cases hx : s.shard i <;> rw [hx] at this <;> simp [keyOn] at this
  refine ⟨Exec.weakFair_of_end hend ?_, fun i => Exec.strongFair_of_end hend ?_, Exec.weakFair_of_end hend ?_, fun i => Exec.weakFair_of_end hend ?_⟩
  · rintro ⟨l, u, rfl, hs⟩
    clear hsh hw hinv
    cases hs <;> simp_all
  · rintro ⟨l, u, rfl, hs⟩
    have := hsh i
    clear hsh hw hinv
    cases hs <;> simp_all
  · rintro ⟨l, u, rfl, hs⟩
    clear hsh hw hinv
    cases hs <;> simp_all
  · rintro ⟨l, u, ⟨k, rfl⟩, hs⟩
    have := hw i
    clear hsh hw hinv
    cases hs <;> simp_all

/-- States of the example. -/
def keySt (c : Closer) (s0 s1 : KeysChan.Shard Nat) (wg : Nat) (buf : List (Nat × Nat)) (cl : Bool) (ks : List (Nat × Nat)) (r : Bool) (i1 : List Nat) (w1 : Bool) (e0 e1 : List Nat) : KeysChan.State Nat :=
  { items := iterTab [7] i1 [], writer := iterTab false w1 false, closer := c, shard := iterTab s0 s1 .absent, wg := wg, buf := buf, closed := cl, keys := ks, returned := r, seen := iterTab e0 e1 [], dead := false }

set_option linter.unusedSimpArgs false in
/-- Two shards with one key; two are added after the count, so the channel has room for one only. -/
theorem key_run : ∃ ls, Steps (KeysChan.Step 2 1) (KeysChan.start (iterTab [7] [] []) 2) ls (keySt .ended .ended .ended 0 [] true [(0, 7), (1, 8), (1, 9)] true [8, 9] false [7] [8, 9]) := by
  have h : KeysChan.start (iterTab [7] [] []) 2 = (keySt (.spawn 0) .absent .absent 2 [] false [] false [] false [] []) := by simp only [KeysChan.start, keySt, tab_same]
  rw [h]
  have h0 : KeysChan.Step 2 1 (keySt (.spawn 0) .absent .absent 2 [] false [] false [] false [] []) .closer (keySt (.spawn 1) .lock .absent 2 [] false [] false [] false [] []) := by
    have h := KeysChan.Step.spawn 0 rfl rfl (by decide) (n := 2) (cap := 1) (s := keySt (.spawn 0) .absent .absent 2 [] false [] false [] false [] [])
    simp only [keySt, upd_tab0, upd_tab1, tab0, tab1, List.nil_append, List.cons_append] at h; exact h
  have h1 : KeysChan.Step 2 1 (keySt (.spawn 1) .lock .absent 2 [] false [] false [] false [] []) (.lockW 1) (keySt (.spawn 1) .lock .absent 2 [] false [] false [] true [] []) := by
    have h := KeysChan.Step.lockW 1 rfl rfl rfl (n := 2) (cap := 1) (s := keySt (.spawn 1) .lock .absent 2 [] false [] false [] false [] [])
    simp only [keySt, upd_tab0, upd_tab1, tab0, tab1, List.nil_append, List.cons_append] at h; exact h
  have h2 : KeysChan.Step 2 1 (keySt (.spawn 1) .lock .absent 2 [] false [] false [] true [] []) (.shard 0) (keySt (.spawn 1) (.send [7]) .absent 2 [] false [] false [] true [7] []) := by
    have h := KeysChan.Step.rlock 0 rfl rfl rfl (n := 2) (cap := 1) (s := keySt (.spawn 1) .lock .absent 2 [] false [] false [] true [] [])
    simp only [keySt, upd_tab0, upd_tab1, tab0, tab1, List.nil_append, List.cons_append] at h; exact h
  have h3 : KeysChan.Step 2 1 (keySt (.spawn 1) (.send [7]) .absent 2 [] false [] false [] true [7] []) .closer (keySt (.spawn 2) (.send [7]) .lock 2 [] false [] false [] true [7] []) := by
    have h := KeysChan.Step.spawn 1 rfl rfl (by decide) (n := 2) (cap := 1) (s := keySt (.spawn 1) (.send [7]) .absent 2 [] false [] false [] true [7] [])
    simp only [keySt, upd_tab0, upd_tab1, tab0, tab1, List.nil_append, List.cons_append] at h; exact h
  have h4 : KeysChan.Step 2 1 (keySt (.spawn 2) (.send [7]) .lock 2 [] false [] false [] true [7] []) (.shard 0) (keySt (.spawn 2) (.send []) .lock 2 [(0, 7)] false [] false [] true [7] []) := by
    have h := KeysChan.Step.send 0 7 [] rfl rfl rfl (by decide) (n := 2) (cap := 1) (s := keySt (.spawn 2) (.send [7]) .lock 2 [] false [] false [] true [7] [])
    simp only [keySt, upd_tab0, upd_tab1, tab0, tab1, List.nil_append, List.cons_append] at h; exact h
  have h5 : KeysChan.Step 2 1 (keySt (.spawn 2) (.send []) .lock 2 [(0, 7)] false [] false [] true [7] []) (.unlockW 1 [8, 9]) (keySt (.spawn 2) (.send []) .lock 2 [(0, 7)] false [] false [8, 9] false [7] []) := by
    have h := KeysChan.Step.unlockW 1 [8, 9] rfl rfl (n := 2) (cap := 1) (s := keySt (.spawn 2) (.send []) .lock 2 [(0, 7)] false [] false [] true [7] [])
    simp only [keySt, upd_tab0, upd_tab1, tab0, tab1, List.nil_append, List.cons_append] at h; exact h
  have h6 : KeysChan.Step 2 1 (keySt (.spawn 2) (.send []) .lock 2 [(0, 7)] false [] false [8, 9] false [7] []) (.shard 1) (keySt (.spawn 2) (.send []) (.send [8, 9]) 2 [(0, 7)] false [] false [8, 9] false [7] [8, 9]) := by
    have h := KeysChan.Step.rlock 1 rfl rfl rfl (n := 2) (cap := 1) (s := keySt (.spawn 2) (.send []) .lock 2 [(0, 7)] false [] false [8, 9] false [7] [])
    simp only [keySt, upd_tab0, upd_tab1, tab0, tab1, List.nil_append, List.cons_append] at h; exact h
  have h7 : KeysChan.Step 2 1 (keySt (.spawn 2) (.send []) (.send [8, 9]) 2 [(0, 7)] false [] false [8, 9] false [7] [8, 9]) .closer (keySt .wait (.send []) (.send [8, 9]) 2 [(0, 7)] false [] false [8, 9] false [7] [8, 9]) := by
    have h := KeysChan.Step.spawned rfl rfl (n := 2) (cap := 1) (s := keySt (.spawn 2) (.send []) (.send [8, 9]) 2 [(0, 7)] false [] false [8, 9] false [7] [8, 9])
    simp only [keySt, upd_tab0, upd_tab1, tab0, tab1, List.nil_append, List.cons_append] at h; exact h
  have h8 : KeysChan.Step 2 1 (keySt .wait (.send []) (.send [8, 9]) 2 [(0, 7)] false [] false [8, 9] false [7] [8, 9]) .read (keySt .wait (.send []) (.send [8, 9]) 2 [] false [(0, 7)] false [8, 9] false [7] [8, 9]) := by
    have h := KeysChan.Step.take (0, 7) [] rfl rfl rfl (n := 2) (cap := 1) (s := keySt .wait (.send []) (.send [8, 9]) 2 [(0, 7)] false [] false [8, 9] false [7] [8, 9])
    simp only [keySt, upd_tab0, upd_tab1, tab0, tab1, List.nil_append, List.cons_append] at h; exact h
  have h9 : KeysChan.Step 2 1 (keySt .wait (.send []) (.send [8, 9]) 2 [] false [(0, 7)] false [8, 9] false [7] [8, 9]) (.shard 1) (keySt .wait (.send []) (.send [9]) 2 [] false [(0, 7), (1, 8)] false [8, 9] false [7] [8, 9]) := by
    have h := KeysChan.Step.hand 1 8 [9] rfl rfl rfl rfl rfl (n := 2) (cap := 1) (s := keySt .wait (.send []) (.send [8, 9]) 2 [] false [(0, 7)] false [8, 9] false [7] [8, 9])
    simp only [keySt, upd_tab0, upd_tab1, tab0, tab1, List.nil_append, List.cons_append] at h; exact h
  have h10 : KeysChan.Step 2 1 (keySt .wait (.send []) (.send [9]) 2 [] false [(0, 7), (1, 8)] false [8, 9] false [7] [8, 9]) (.shard 1) (keySt .wait (.send []) (.send []) 2 [(1, 9)] false [(0, 7), (1, 8)] false [8, 9] false [7] [8, 9]) := by
    have h := KeysChan.Step.send 1 9 [] rfl rfl rfl (by decide) (n := 2) (cap := 1) (s := keySt .wait (.send []) (.send [9]) 2 [] false [(0, 7), (1, 8)] false [8, 9] false [7] [8, 9])
    simp only [keySt, upd_tab0, upd_tab1, tab0, tab1, List.nil_append, List.cons_append] at h; exact h
  have h11 : KeysChan.Step 2 1 (keySt .wait (.send []) (.send []) 2 [(1, 9)] false [(0, 7), (1, 8)] false [8, 9] false [7] [8, 9]) (.shard 1) (keySt .wait (.send []) .unlocked 2 [(1, 9)] false [(0, 7), (1, 8)] false [8, 9] false [7] [8, 9]) := by
    have h := KeysChan.Step.runlock 1 rfl rfl (n := 2) (cap := 1) (s := keySt .wait (.send []) (.send []) 2 [(1, 9)] false [(0, 7), (1, 8)] false [8, 9] false [7] [8, 9])
    simp only [keySt, upd_tab0, upd_tab1, tab0, tab1, List.nil_append, List.cons_append] at h; exact h
  have h12 : KeysChan.Step 2 1 (keySt .wait (.send []) .unlocked 2 [(1, 9)] false [(0, 7), (1, 8)] false [8, 9] false [7] [8, 9]) (.shard 1) (keySt .wait (.send []) .ended 1 [(1, 9)] false [(0, 7), (1, 8)] false [8, 9] false [7] [8, 9]) := by
    have h := KeysChan.Step.done 1 rfl rfl (by decide) (n := 2) (cap := 1) (s := keySt .wait (.send []) .unlocked 2 [(1, 9)] false [(0, 7), (1, 8)] false [8, 9] false [7] [8, 9])
    simp only [keySt, upd_tab0, upd_tab1, tab0, tab1, List.nil_append, List.cons_append] at h; exact h
  have h13 : KeysChan.Step 2 1 (keySt .wait (.send []) .ended 1 [(1, 9)] false [(0, 7), (1, 8)] false [8, 9] false [7] [8, 9]) (.shard 0) (keySt .wait .unlocked .ended 1 [(1, 9)] false [(0, 7), (1, 8)] false [8, 9] false [7] [8, 9]) := by
    have h := KeysChan.Step.runlock 0 rfl rfl (n := 2) (cap := 1) (s := keySt .wait (.send []) .ended 1 [(1, 9)] false [(0, 7), (1, 8)] false [8, 9] false [7] [8, 9])
    simp only [keySt, upd_tab0, upd_tab1, tab0, tab1, List.nil_append, List.cons_append] at h; exact h
  have h14 : KeysChan.Step 2 1 (keySt .wait .unlocked .ended 1 [(1, 9)] false [(0, 7), (1, 8)] false [8, 9] false [7] [8, 9]) (.shard 0) (keySt .wait .ended .ended 0 [(1, 9)] false [(0, 7), (1, 8)] false [8, 9] false [7] [8, 9]) := by
    have h := KeysChan.Step.done 0 rfl rfl (by decide) (n := 2) (cap := 1) (s := keySt .wait .unlocked .ended 1 [(1, 9)] false [(0, 7), (1, 8)] false [8, 9] false [7] [8, 9])
    simp only [keySt, upd_tab0, upd_tab1, tab0, tab1, List.nil_append, List.cons_append] at h; exact h
  have h15 : KeysChan.Step 2 1 (keySt .wait .ended .ended 0 [(1, 9)] false [(0, 7), (1, 8)] false [8, 9] false [7] [8, 9]) .closer (keySt .ended .ended .ended 0 [(1, 9)] true [(0, 7), (1, 8)] false [8, 9] false [7] [8, 9]) := by
    have h := KeysChan.Step.close rfl rfl rfl (n := 2) (cap := 1) (s := keySt .wait .ended .ended 0 [(1, 9)] false [(0, 7), (1, 8)] false [8, 9] false [7] [8, 9])
    simp only [keySt, upd_tab0, upd_tab1, tab0, tab1, List.nil_append, List.cons_append] at h; exact h
  have h16 : KeysChan.Step 2 1 (keySt .ended .ended .ended 0 [(1, 9)] true [(0, 7), (1, 8)] false [8, 9] false [7] [8, 9]) .read (keySt .ended .ended .ended 0 [] true [(0, 7), (1, 8), (1, 9)] false [8, 9] false [7] [8, 9]) := by
    have h := KeysChan.Step.take (1, 9) [] rfl rfl rfl (n := 2) (cap := 1) (s := keySt .ended .ended .ended 0 [(1, 9)] true [(0, 7), (1, 8)] false [8, 9] false [7] [8, 9])
    simp only [keySt, upd_tab0, upd_tab1, tab0, tab1, List.nil_append, List.cons_append] at h; exact h
  have h17 : KeysChan.Step 2 1 (keySt .ended .ended .ended 0 [] true [(0, 7), (1, 8), (1, 9)] false [8, 9] false [7] [8, 9]) .read (keySt .ended .ended .ended 0 [] true [(0, 7), (1, 8), (1, 9)] true [8, 9] false [7] [8, 9]) := by
    have h := KeysChan.Step.ret rfl rfl rfl rfl (n := 2) (cap := 1) (s := keySt .ended .ended .ended 0 [] true [(0, 7), (1, 8), (1, 9)] false [8, 9] false [7] [8, 9])
    simp only [keySt, upd_tab0, upd_tab1, tab0, tab1, List.nil_append, List.cons_append] at h; exact h
  exact ⟨_, .cons h0 (.cons h1 (.cons h2 (.cons h3 (.cons h4 (.cons h5 (.cons h6 (.cons h7 (.cons h8 (.cons h9 (.cons h10 (.cons h11 (.cons h12 (.cons h13 (.cons h14 (.cons h15 (.cons h16 (.cons h17 (.nil _))))))))))))))))))⟩

example : ∃ (e : Exec (KeysChan.Step (E := Nat) 2 1)) (N : Nat), KeyFair e ∧ e.run 0 = KeysChan.start (iterTab [7] [] []) 2 ∧ ∀ k, N ≤ k → (e.run k).keys = [(0, 7), (1, 8), (1, 9)] := by
  obtain ⟨ls, hst⟩ := key_run
  obtain ⟨e, he0, _, _, hend⟩ := Exec.ofSteps hst
  exact ⟨e, ls.length, keyFair_of_end (keyInv_run hst) hend rfl (fun i => by simp [keySt, iterTab]), he0, fun k hk => by rw [hend k hk]; rfl⟩

/-- The channel is open and empty, the caller reads, nobody has a write lock. -/
structure KeyCalm (n : Nat) (s : KeysChan.State E) : Prop where
  alive : s.dead = false
  closer : s.closer = .spawn n
  open_ : s.closed = false
  buf : s.buf = []
  ret : s.returned = false
  writer : ∀ i, s.writer i = false

/-- A shard's goroutine can go through its shard while nothing else happens. -/
theorem key_through {n cap : Nat} {s : KeysChan.State E} (hc : KeyCalm n s) {i : Nat} (hi : s.shard i = .lock) :
    ∃ ls t, Steps (KeysChan.Step n cap) s ls t ∧ KeyCalm n t ∧ t.shard = IterChan.upd s.shard i .unlocked ∧ t.wg = s.wg := by
  have hsend : ∀ (r : List E) (u : KeysChan.State E), KeyCalm n u → u.shard i = .send r → ∃ ls t, Steps (KeysChan.Step n cap) u ls t ∧ KeyCalm n t ∧ t.shard = IterChan.upd u.shard i .unlocked ∧ t.wg = u.wg := by
    intro r
    induction r with
    | nil => exact fun u hu hs => ⟨_, _, .cons (.runlock i hu.alive hs) (.nil _), ⟨hu.1, hu.2, hu.3, hu.4, hu.5, hu.6⟩, rfl, rfl⟩
    | cons x r ih =>
      intro u hu hs
      obtain ⟨ls, t, h1, h2, h3, h4⟩ := ih { u with shard := IterChan.upd u.shard i (.send r), keys := u.keys ++ [(i, x)] } ⟨hu.1, hu.2, hu.3, hu.4, hu.5, hu.6⟩ (upd_self ..)
      refine ⟨_, t, .cons (.hand i x r hu.alive hs hu.open_ hu.buf hu.ret) h1, h2, ?_, h4⟩
      rw [h3]; funext j; simp only [IterChan.upd]; split <;> rfl
  obtain ⟨ls, t, h1, h2, h3, h4⟩ := hsend (s.items i) { s with shard := IterChan.upd s.shard i (.send (s.items i)), seen := IterChan.upd s.seen i (s.items i) } ⟨hc.1, hc.2, hc.3, hc.4, hc.5, hc.6⟩ (upd_self ..)
  refine ⟨_, t, .cons (.rlock i hc.alive hi (hc.writer i)) h1, h2, ?_, h4⟩
  rw [h3]; funext j; simp only [IterChan.upd]; split <;> rfl

/-- **C120** (`Keys`, with a smaller `ShardCount`): if `ShardCount` was set to less than the number of shards, the goroutines of a call of `Keys` cannot all end, and the call can end the process. (If it was raised, `Count`, which `Keys` calls
first, panics: `C120_exact_count`.) -/
theorem C120_keys_refuted {n m cap : Nat} (hm : m < n) (items : Nat → List E) :
    (∀ ls s, Steps (KeysChan.Step n cap) (KeysChan.start items m) ls s → ∃ i, i < n ∧ s.shard i ≠ .ended) ∧
    ∃ ls s, Steps (KeysChan.Step n cap) (KeysChan.start items m) ls s ∧ s.dead = true := by
  constructor
  · intro ls s h
    have hinv : m + sumBelow (fun i => keyPending (s.shard i)) n = s.wg + n := by
      refine h.invariant (P := fun s => closerAt n s.closer ≤ n ∧ (∀ i, closerAt n s.closer ≤ i → s.shard i = .absent) ∧ m + sumBelow (fun i => keyPending (s.shard i)) n = s.wg + n) (fun s l t hp hs => ?_) ⟨Nat.zero_le _, fun _ _ => rfl, ?_⟩ |>.2.2
      · obtain ⟨hle, hab, hp⟩ := hp
        have hlt : ∀ i, s.shard i ≠ .absent → i < closerAt n s.closer := fun i hi => by
          rcases Nat.lt_or_ge i (closerAt n s.closer) with h | h
          · exact h
          · exact absurd (hab i h) hi
        have key : ∀ i sh, s.shard i ≠ .absent → keyPending sh = keyPending (s.shard i) → (∀ j, closerAt n s.closer ≤ j → IterChan.upd s.shard i sh j = .absent) ∧ m + sumBelow (fun j => keyPending (IterChan.upd s.shard i sh j)) n = s.wg + n := by
          intro i sh hi he
          have hi := hlt i hi
          refine ⟨fun j hj => by rw [upd_ne _ _ (by omega)]; exact hab j hj, ?_⟩
          have := count_upd s.shard keyPending sh (show i < n by omega)
          omega
        have h1 : keyPending (.unlocked : KeysChan.Shard E) = 1 := rfl
        have h2 : keyPending (.absent : KeysChan.Shard E) = 1 := rfl
        have h3 : keyPending (.lock : KeysChan.Shard E) = 1 := rfl
        have h4 : keyPending (.ended : KeysChan.Shard E) = 0 := rfl
        cases hs with
        | spawn j hd hc hj =>
          rw [hc] at hab
          refine ⟨hj, fun i (hi : j + 1 ≤ i) => by dsimp only; rw [upd_ne _ _ (by omega)]; exact hab i (Nat.le_of_succ_le hi), ?_⟩
          have := count_upd s.shard keyPending .lock hj
          rw [hab j (Nat.le_refl j)] at this
          dsimp only
          omega
        | spawned hd hc => rw [hc] at hab; exact ⟨Nat.le_refl n, hab, hp⟩
        | close hd hc => rw [hc] at hab; exact ⟨Nat.le_refl n, hab, hp⟩
        | rlock i hd hi hw => exact ⟨hle, key i _ (by rw [hi]; simp) (by rw [hi]; rfl)⟩
        | send i x rest hd hi => exact ⟨hle, key i _ (by rw [hi]; simp) (by rw [hi]; rfl)⟩
        | hand i x rest hd hi => exact ⟨hle, key i _ (by rw [hi]; simp) (by rw [hi]; rfl)⟩
        | runlock i hd hi => exact ⟨hle, key i _ (by rw [hi]; simp) (by rw [hi]; rfl)⟩
        | done i hd hi hw =>
          have hin := hlt i (by rw [hi]; simp)
          refine ⟨hle, fun j (hj : closerAt n s.closer ≤ j) => by dsimp only; rw [upd_ne _ _ (by omega)]; exact hab j hj, ?_⟩
          have := count_upd s.shard keyPending .ended (show i < n by omega)
          rw [hi] at this
          dsimp only
          omega
        | _ => exact ⟨hle, hab, hp⟩
      · rw [show sumBelow (fun i => keyPending ((KeysChan.start items m).shard i)) n = n from sumBelow_ones n]; rfl
    apply Classical.byContradiction
    intro hno
    have : sumBelow (fun i => keyPending (s.shard i)) n = 0 := sumBelow_of_zero fun i hi => by
      have : s.shard i = .ended := Classical.byContradiction fun h => hno ⟨i, hi, h⟩
      rw [this]; rfl
    omega
  · have hsp : ∀ j, j ≤ n → ∃ ls s, Steps (KeysChan.Step n cap) (KeysChan.start items m) ls s ∧ s = { KeysChan.start items m with closer := .spawn j, shard := fun i => if i < j then .lock else .absent } := by
      intro j
      induction j with
      | zero => exact fun _ => ⟨[], _, .nil _, rfl⟩
      | succ j ih =>
        intro hj
        obtain ⟨ls, s, h, rfl⟩ := ih (by omega)
        refine ⟨_, _, h.snoc (.spawn j rfl rfl hj), ?_⟩
        congr 1
        funext i
        simp only [IterChan.upd]
        by_cases e1 : i = j
        · subst e1; simp
        · rw [if_neg e1]
          by_cases e2 : i < j
          · rw [if_pos e2, if_pos (by omega)]
          · rw [if_neg e2, if_neg (by omega)]
    have hdn : ∀ j, j ≤ m → ∃ ls s, Steps (KeysChan.Step n cap) (KeysChan.start items m) ls s ∧ KeyCalm n s ∧ s.wg = m - j ∧ ∀ i, j ≤ i → i < n → s.shard i = .lock := by
      intro j
      induction j with
      | zero =>
        intro _
        obtain ⟨ls, s, h, hs⟩ := hsp n (Nat.le_refl n)
        subst hs
        exact ⟨ls, _, h, ⟨rfl, rfl, rfl, rfl, rfl, fun _ => rfl⟩, rfl, fun i _ hi => if_pos hi⟩
      | succ j ih =>
        intro hj
        obtain ⟨ls, s, h, hc, hw, hl⟩ := ih (by omega)
        obtain ⟨ks, t, h1, h2, h3, h4⟩ := key_through (cap := cap) hc (hl j (Nat.le_refl j) (by omega))
        refine ⟨_, _, (h.append h1).snoc (.done j h2.alive (by rw [h3]; exact upd_self ..) (by omega)), ⟨h2.1, h2.2, h2.3, h2.4, h2.5, h2.6⟩, by dsimp only; omega, fun i hi hin => ?_⟩
        dsimp only
        rw [upd_ne _ _ (by omega), h3, upd_ne _ _ (by omega)]
        exact hl i (by omega) hin
    obtain ⟨ls, s, h, hc, hw, hl⟩ := hdn m (Nat.le_refl m)
    obtain ⟨ks, t, h1, h2, h3, h4⟩ := key_through (cap := cap) hc (hl m (Nat.le_refl m) hm)
    exact ⟨_, _, (h.append h1).snoc (.donePanic m h2.alive (by rw [h3]; exact upd_self ..) (by omega)), rfl⟩

/-- Times the write lock of shard `i` was taken and given back. -/
def wLocks (i : Nat) (ls : List (KeysChan.Label E)) : Nat := ls.countP fun | .lockW i' => i' = i | _ => false
def wUnlocks (i : Nat) (ls : List (KeysChan.Label E)) : Nat := ls.countP fun | .unlockW i' _ => i' = i | _ => false

/-- At most one writer has the lock of a shard, and none while `Keys` reads the shard. -/
theorem C126_excl {n cap : Nat} {items : Nat → List E} {ls : List (KeysChan.Label E)} {s : KeysChan.State E} (h : Steps (KeysChan.Step n cap) (KeysChan.start items n) ls s) (i : Nat) :
    wLocks i ls = wUnlocks i ls + (if s.writer i then 1 else 0) ∧ ((s.shard i).reads = true → wLocks i ls = wUnlocks i ls) := by
  suffices hh : wLocks i ls = wUnlocks i ls + (if s.writer i then 1 else 0) ∧ ((s.shard i).reads = true → s.writer i = false) from ⟨hh.1, fun hr => by rw [hh.1, hh.2 hr]; simp⟩
  refine h.invariant_trace (P := fun ls s => wLocks i ls = wUnlocks i ls + (if s.writer i then 1 else 0) ∧ ((s.shard i).reads = true → s.writer i = false)) ?_
    (by simp [wLocks, wUnlocks, KeysChan.start, Shard.reads])
  intro ls s l t ⟨h1, h2⟩ hs
  unfold wLocks wUnlocks at *
  simp only [List.countP_append, List.countP_cons, List.countP_nil]
  cases hs
  case lockW j _ hw hr => by_cases hj : j = i <;> grind [IterChan.upd]
  case unlockW j _ _ hw => by_cases hj : j = i <;> grind [IterChan.upd]
  all_goals simp
  all_goals grind [IterChan.upd, Shard.reads]

/-- Shard 0 has been written to and is being read, shard 1 is being written to. -/
example : ∃ ls s, Steps (KeysChan.Step 2 1) (KeysChan.start (fun _ => [(5 : Nat)]) 2) ls s ∧ (s.shard 0).reads = true ∧ wLocks 0 ls = 1 ∧ s.writer 1 = true := by
  refine ⟨[.lockW 0, .unlockW 0 [6], .closer, .shard 0, .lockW 1], _, .cons (.lockW 0 rfl rfl rfl) <| .cons (.unlockW 0 [6] rfl rfl) <| .cons (.spawn 0 rfl rfl (by omega)) <| .cons (.rlock 0 rfl rfl rfl) <|
    .cons (.lockW 1 rfl rfl rfl) (.nil _), rfl, rfl, rfl⟩

end Zinx.Props
