import Verif.Model.Bcast
import Verif.Lemmas.ExecOf

/-! # C150: broadcasts reach everyone who stays, once and in the same order -/

namespace Zinx.Props

open Zinx Zinx.Bcast

/-- The broadcasts that were sent to the connection registered as `id`, in order, whether or not the send succeeded. -/
def sentTo (id : Nat) (ls : List Bcast.Label) : List Msg := ls.filterMap fun | .send x id' _ _ => if id' = id then some x else none | _ => none

/-- The connection that is registered as `id`. -/
def regOf (id : Nat) (ls : List Bcast.Label) : Option Nat :=
  ls.foldl (fun r l => match l with | .set id' c => if id' = id then some c else r | .del id' => if id' = id then none else r | _ => r) none

theorem sentTo_snoc (id : Nat) (ls : List Bcast.Label) (l : Bcast.Label) :
    sentTo id (ls ++ [l]) = sentTo id ls ++ (match l with | .send x id' _ _ => if id' = id then [x] else [] | _ => []) := by
  unfold sentTo
  rw [List.filterMap_append]
  cases l <;> simp [List.filterMap_cons]
  split <;> simp_all

theorem regOf_snoc (id : Nat) (ls : List Bcast.Label) (l : Bcast.Label) :
    regOf id (ls ++ [l]) = (match l with | .set id' c => if id' = id then some c else regOf id ls | .del id' => if id' = id then none else regOf id ls | _ => regOf id ls) := by
  unfold regOf
  rw [List.foldl_append]
  rfl

/-- The broadcast a goroutine is making. -/
def Job.msg : Bcast.Job → Option Msg
  | .idle => none
  | .at x _ => some x
  | .inn x _ _ => some x

/-- Shard tables, jobs, and what the trace says of them. -/
structure BcastInv (home : Nat → Nat) (ls : List Bcast.Label) (s : Bcast.State) : Prop where
  reg : ∀ id c, (id, c) ∈ s.tab (home id) ↔ regOf id ls = some c
  place : ∀ i id c, (id, c) ∈ s.tab i → home id = i
  keys : ∀ i, ((s.tab i).map (·.1)).Nodup
  shut : ∀ c, s.closed c = true ↔ .close c ∈ ls
  own : ∀ g x, Job.msg (s.job g) = some x → x.who = g ∧ x.n + 1 = s.said g
  begun : ∀ x, .start x ∈ ls ↔ x.n < s.said x.who
  ended : ∀ x, .done x ∈ ls ↔ x.n < s.said x.who ∧ Job.msg (s.job x.who) ≠ some x
  sub : ∀ g x i b, s.job g = .inn x i b → (∀ p, p ∈ b → p ∈ s.tab i) ∧ (b.map (·.1)).Nodup
  old : ∀ id x, x ∈ sentTo id ls → x.n < s.said x.who
  past : ∀ id g x i, x ∈ sentTo id ls → s.job g = .at x i → home id < i
  over : ∀ id g x i b, x ∈ sentTo id ls → s.job g = .inn x i b → home id < i ∨ home id = i ∧ id ∉ b.map (·.1)
  inc : ∀ id g, ((sentTo id ls).filter fun x => x.who = g).Pairwise fun x y => x.n < y.n

theorem bcast_init (home : Nat → Nat) : BcastInv home [] {} := by
  refine ⟨?_, ?_, ?_, ?_, ?_, ?_, ?_, ?_, ?_, ?_, ?_, ?_⟩ <;> simp [regOf, sentTo, Job.msg]

theorem bcast_step {n : Nat} {home : Nat → Nat} {ls : List Bcast.Label} {s t : Bcast.State} {l : Bcast.Label} (hi : BcastInv home ls s) (hs : Bcast.Step n home s l t) : BcastInv home (ls ++ [l]) t := by
  obtain ⟨reg, place, keys, shut, own, begun, ended, sub, old, past, over, inc⟩ := hi
  cases hs with
  | set id c h =>
    refine ⟨?_, ?_, ?_, by simpa using shut, own, by simpa using begun, by simpa using ended, ?_, ?_, ?_, ?_, ?_⟩
    · intro id' c'
      rw [regOf_snoc]
      dsimp only [Bcast.upd]
      have := reg id' c'
      by_cases e : id = id'
      · subst e; simp; grind
      · have e' : ¬ id' = id := fun h => e h.symm
        simp only [e, if_false]
        rw [← this]
        split <;> simp_all
    · intro i id' c' hm
      dsimp only [Bcast.upd] at hm
      split at hm
      · simp at hm; grind
      · exact place i id' c' hm
    · intro i
      dsimp only [Bcast.upd]
      split
      · simp only [List.map_cons, List.nodup_cons]
        refine ⟨by simp, List.Sublist.nodup ((List.filter_sublist).map _) (keys _)⟩
      · exact keys i
    · intro g x i b hj
      refine ⟨fun p hp => ?_, (sub g x i b hj).2⟩
      dsimp only [Bcast.upd]
      split
      · rename_i e; subst e; exact absurd hj (h g x b)
      · exact (sub g x i b hj).1 p hp
    all_goals simp only [sentTo_snoc, List.append_nil]; assumption
  | del id h =>
    refine ⟨?_, ?_, ?_, by simpa using shut, own, by simpa using begun, by simpa using ended, ?_, ?_, ?_, ?_, ?_⟩
    · intro id' c'
      rw [regOf_snoc]
      dsimp only [Bcast.upd]
      have := reg id' c'
      by_cases e : id = id'
      · subst e; simp
      · have e' : ¬ id' = id := fun h => e h.symm
        simp only [e, if_false]
        rw [← this]
        split <;> simp_all
    · intro i id' c' hm
      dsimp only [Bcast.upd] at hm
      split at hm
      · simp at hm; grind
      · exact place i id' c' hm
    · intro i
      dsimp only [Bcast.upd]
      split
      · exact List.Sublist.nodup ((List.filter_sublist).map _) (keys _)
      · exact keys i
    · intro g x i b hj
      refine ⟨fun p hp => ?_, (sub g x i b hj).2⟩
      dsimp only [Bcast.upd]
      split
      · rename_i e; subst e; exact absurd hj (h g x b)
      · exact (sub g x i b hj).1 p hp
    all_goals simp only [sentTo_snoc, List.append_nil]; assumption
  | close c =>
    refine ⟨?_, place, keys, ?_, own, by simpa using begun, by simpa using ended, sub, ?_, ?_, ?_, ?_⟩
    · intro id' c'; rw [regOf_snoc]; exact reg id' c'
    · intro c'; simp [Bcast.upd]; grind
    all_goals simp only [sentTo_snoc, List.append_nil]; assumption
  | start g h =>
    refine ⟨?_, place, keys, by simpa using shut, ?_, ?_, ?_, ?_, ?_, ?_, ?_, ?_⟩
    · intro id' c'; rw [regOf_snoc]; exact reg id' c'
    · intro g' x hx
      dsimp only [Bcast.upd] at hx ⊢
      split at hx
      · rename_i e; subst e; simp [Job.msg] at hx; subst hx; simp
      · rename_i e; simp only [e, if_false]; exact own g' x hx
    · intro x
      have := begun x
      simp [Bcast.upd]
      obtain ⟨w, k⟩ := x
      by_cases e : w = g
      · subst e; simp at this ⊢; grind
      · simp [e]; exact this
    · intro x
      have := ended x
      simp [Bcast.upd]
      obtain ⟨w, k⟩ := x
      by_cases e : w = g
      · subst e; simp [Job.msg, h] at this ⊢; grind
      · simp [e]; simpa using this
    · intro g' x i b hj
      dsimp only [Bcast.upd] at hj
      split at hj
      · simp at hj
      · exact sub g' x i b hj
    · intro id x hx
      simp only [sentTo_snoc, List.append_nil] at hx
      have := old id x hx
      dsimp only [Bcast.upd]
      split
      · rename_i e; rw [← e]; omega
      · exact this
    · intro id g' x i hx hj
      simp only [sentTo_snoc, List.append_nil] at hx
      dsimp only [Bcast.upd] at hj
      split at hj
      · injection hj with e1 e2; subst e1; exact absurd (old id _ hx) (by simp)
      · exact past id g' x i hx hj
    · intro id g' x i b hx hj
      simp only [sentTo_snoc, List.append_nil] at hx
      dsimp only [Bcast.upd] at hj
      split at hj
      · simp at hj
      · exact over id g' x i b hx hj
    · simp only [sentTo_snoc, List.append_nil]; exact inc
  | lock g x i b h hin hb =>
    refine ⟨?_, place, keys, by simpa using shut, ?_, by simpa using begun, ?_, ?_, ?_, ?_, ?_, ?_⟩
    · intro id' c'; rw [regOf_snoc]; exact reg id' c'
    · intro g' y hy
      dsimp only [Bcast.upd] at hy ⊢
      split at hy
      · rename_i e; subst e; exact own g' y (by rw [h]; exact hy)
      · exact own g' y hy
    · intro y
      have := ended y
      simp [Bcast.upd]
      split
      · rename_i e; rw [e, h] at this; simpa [e, Job.msg] using this
      · simpa using this
    · intro g' y j b' hj
      dsimp only [Bcast.upd] at hj
      split at hj
      · injection hj with e1 e2 e3; subst e1 e2 e3
        exact ⟨fun p hp => hb.subset hp, (hb.map _).nodup_iff.mpr (keys _)⟩
      · exact sub g' y j b' hj
    · simp only [sentTo_snoc, List.append_nil]; exact old
    · intro id g' y j hx hj
      simp only [sentTo_snoc, List.append_nil] at hx
      dsimp only [Bcast.upd] at hj
      split at hj
      · simp at hj
      · exact past id g' y j hx hj
    · intro id g' y j b' hx hj
      simp only [sentTo_snoc, List.append_nil] at hx
      dsimp only [Bcast.upd] at hj
      split at hj
      · injection hj with e1 e2 e3; subst e1 e2 e3
        exact .inl (past id g _ _ hx h)
      · exact over id g' y j b' hx hj
    · simp only [sentTo_snoc, List.append_nil]; exact inc
  | send g x i id c b h =>
    obtain ⟨hsub, hnd⟩ := sub g x i _ h
    obtain ⟨hw, hn⟩ := own g x (by rw [h]; rfl)
    have hhome : home id = i := place i id c (hsub _ (by simp))
    have hnot : x ∉ sentTo id ls := by
      intro hx
      rcases over id g x i _ hx h with h1 | ⟨_, h1⟩
      · omega
      · simp at h1
    refine ⟨?_, place, keys, by simpa using shut, ?_, by simpa using begun, ?_, ?_, ?_, ?_, ?_, ?_⟩
    · intro id' c'; rw [regOf_snoc]; exact reg id' c'
    · intro g' y hy
      dsimp only [Bcast.upd] at hy ⊢
      split at hy
      · rename_i e; subst e; exact own g' y (by rw [h]; exact hy)
      · exact own g' y hy
    · intro y
      have := ended y
      simp [Bcast.upd]
      split
      · rename_i e; rw [e, h] at this; simpa [e, Job.msg] using this
      · simpa using this
    · intro g' y j b' hj
      dsimp only [Bcast.upd] at hj
      split at hj
      · injection hj with e1 e2 e3; subst e1 e2 e3
        refine ⟨fun p hp => hsub p (by simp [hp]), ?_⟩
        simp only [List.map_cons, List.nodup_cons] at hnd; exact hnd.2
      · exact sub g' y j b' hj
    · intro id' y hy
      rw [sentTo_snoc] at hy
      dsimp only at hy ⊢
      rw [List.mem_append] at hy
      rcases hy with hy | hy
      · exact old id' y hy
      · split at hy
        · simp at hy; subst hy; rw [hw]; omega
        · simp at hy
    · intro id' g' y j hy hj
      dsimp only [Bcast.upd] at hj
      split at hj
      · simp at hj
      · rename_i e
        rw [sentTo_snoc, List.mem_append] at hy
        rcases hy with hy | hy
        · exact past id' g' y j hy hj
        · dsimp only at hy
          split at hy
          · simp at hy; subst hy; exact absurd ((own g' y (by rw [hj]; rfl)).1.symm.trans hw) e
          · simp at hy
    · intro id' g' y j b' hy hj
      dsimp only [Bcast.upd] at hj
      rw [sentTo_snoc, List.mem_append] at hy
      split at hj
      · injection hj with e1 e2 e3; subst e1 e2 e3
        rcases hy with hy | hy
        · rcases over id' g x i _ hy h with h1 | ⟨h1, h2⟩
          · exact .inl h1
          · exact .inr ⟨h1, fun hm => h2 (by simp only [List.map_cons, List.mem_cons]; exact .inr hm)⟩
        · dsimp only at hy
          split at hy
          · rename_i e; subst e
            simp only [List.map_cons, List.nodup_cons] at hnd
            exact .inr ⟨hhome, hnd.1⟩
          · simp at hy
      · rename_i e
        rcases hy with hy | hy
        · exact over id' g' y j b' hy hj
        · dsimp only at hy
          split at hy
          · simp at hy; subst hy; exact absurd ((own g' y (by rw [hj]; rfl)).1.symm.trans hw) e
          · simp at hy
    · intro id' g'
      rw [sentTo_snoc]
      dsimp only
      split
      · rename_i e; subst e
        rw [List.filter_append, List.pairwise_append]
        refine ⟨inc id g', ?_, ?_⟩
        · simp only [List.filter_cons, List.filter_nil]; split <;> simp
        · intro y hy z hz
          simp only [List.mem_filter, List.mem_singleton, decide_eq_true_eq] at hy hz
          obtain ⟨rfl, hz⟩ := hz
          have h1 := old id y hy.1
          have h2 : y ≠ z := fun e => hnot (e ▸ hy.1)
          have h3 : y.who = z.who := hy.2.trans hz.symm
          have h4 : y.n ≠ z.n := fun e => h2 (by cases y; cases z; simp_all)
          rw [h3, hw] at h1
          omega
      · simpa using inc id' g'
  | unlock g x i h =>
    refine ⟨?_, place, keys, by simpa using shut, ?_, by simpa using begun, ?_, ?_, ?_, ?_, ?_, ?_⟩
    · intro id' c'; rw [regOf_snoc]; exact reg id' c'
    · intro g' y hy
      dsimp only [Bcast.upd] at hy ⊢
      split at hy
      · rename_i e; subst e; exact own g' y (by rw [h]; exact hy)
      · exact own g' y hy
    · intro y
      have := ended y
      simp [Bcast.upd]
      split
      · rename_i e; rw [e, h] at this; simpa [e, Job.msg] using this
      · simpa using this
    · intro g' y j b' hj
      dsimp only [Bcast.upd] at hj
      split at hj
      · simp at hj
      · exact sub g' y j b' hj
    · simp only [sentTo_snoc, List.append_nil]; exact old
    · intro id g' y j hx hj
      simp only [sentTo_snoc, List.append_nil] at hx
      dsimp only [Bcast.upd] at hj
      split at hj
      · injection hj with e1 e2; subst e1 e2
        rcases over id g _ _ _ hx h with h1 | h1 <;> omega
      · exact past id g' y j hx hj
    · intro id g' y j b' hx hj
      simp only [sentTo_snoc, List.append_nil] at hx
      dsimp only [Bcast.upd] at hj
      split at hj
      · simp at hj
      · exact over id g' y j b' hx hj
    · simp only [sentTo_snoc, List.append_nil]; exact inc
  | done g x h =>
    obtain ⟨hw, hn⟩ := own g x (by rw [h]; rfl)
    refine ⟨?_, place, keys, by simpa using shut, ?_, by simpa using begun, ?_, ?_, ?_, ?_, ?_, ?_⟩
    · intro id' c'; rw [regOf_snoc]; exact reg id' c'
    · intro g' y hy
      dsimp only [Bcast.upd] at hy ⊢
      split at hy
      · simp [Job.msg] at hy
      · exact own g' y hy
    · intro y
      have := ended y
      simp [Bcast.upd]
      by_cases e : y.who = g
      · simp only [e, if_true, Job.msg] at this ⊢
        rw [h] at this
        simp at this
        by_cases e' : x = y
        · subst e'; simp; omega
        · have e'' : ¬ y = x := fun h => e' h.symm
          simp [e', e'', this]
      · have e' : ¬ y = x := fun h => e (h ▸ hw)
        simp [e, e']; simpa using this
    · intro g' y j b' hj
      dsimp only [Bcast.upd] at hj
      split at hj
      · simp at hj
      · exact sub g' y j b' hj
    · simp only [sentTo_snoc, List.append_nil]; exact old
    · intro id g' y j hx hj
      simp only [sentTo_snoc, List.append_nil] at hx
      dsimp only [Bcast.upd] at hj
      split at hj
      · simp at hj
      · exact past id g' y j hx hj
    · intro id g' y j b' hx hj
      simp only [sentTo_snoc, List.append_nil] at hx
      dsimp only [Bcast.upd] at hj
      split at hj
      · simp at hj
      · exact over id g' y j b' hx hj
    · simp only [sentTo_snoc, List.append_nil]; exact inc

theorem bcast_inv {n : Nat} {home : Nat → Nat} {ls : List Bcast.Label} {s : Bcast.State} (h : Steps (Bcast.Step n home) {} ls s) : BcastInv home ls s :=
  h.invariant_trace (P := BcastInv home) (fun _ _ _ _ hi hs => bcast_step hi hs) (bcast_init home)

/-- Nobody is sent a broadcast twice, and the broadcasts of one goroutine reach everyone in the order in which they were made. -/
theorem C150_order_partial {n : Nat} {home : Nat → Nat} {ls : List Bcast.Label} {s : Bcast.State} (h : Steps (Bcast.Step n home) {} ls s) (id : Nat) :
    (sentTo id ls).Nodup ∧ ∀ g, ((sentTo id ls).filter fun x => x.who = g).Pairwise fun x y => x.n < y.n := by
  have hi := bcast_inv h
  refine ⟨?_, hi.inc id⟩
  have : ∀ l : List Msg, (∀ g, (l.filter fun x => x.who = g).Pairwise fun x y => x.n < y.n) → l.Nodup := by
    intro l
    induction l with
    | nil => simp
    | cons a l ih =>
      intro hp
      rw [List.nodup_cons]
      refine ⟨fun ha => ?_, ih fun g => ?_⟩
      · have := hp a.who
        simp only [List.filter_cons, decide_true, if_true, List.pairwise_cons] at this
        exact absurd (this.1 a (by simp [ha])) (Nat.lt_irrefl _)
      · have := hp g
        rw [List.filter_cons] at this
        split at this
        · exact (List.pairwise_cons.mp this).2
        · exact this
  exact this _ (hi.inc id)

/-- A broadcast is sent, between its call and its return, to the connection that is registered at that time; the send succeeds if and only if the connection has not been closed. -/
theorem C150_registered {n : Nat} {home : Nat → Nat} {ls : List Bcast.Label} {s : Bcast.State} {x : Msg} {id c : Nat} {ok : Bool}
    (h : Steps (Bcast.Step n home) {} (ls ++ [.send x id c ok]) s) : regOf id ls = some c ∧ (ok = true ↔ .close c ∉ ls) ∧ .start x ∈ ls ∧ .done x ∉ ls := by
  obtain ⟨t, h1, h2⟩ := h.unsnoc
  have hi := bcast_inv h1
  cases h2 with
  | send g _ i _ _ b hj =>
    have hm : (id, c) ∈ t.tab i := (hi.sub g x i _ hj).1 _ (by simp)
    have hp := hi.place i id c hm
    obtain ⟨hw, hn⟩ := hi.own g x (by rw [hj]; rfl)
    refine ⟨(hi.reg id c).mp (hp ▸ hm), ?_, (hi.begun x).mpr (by rw [hw]; omega), fun hd => ?_⟩
    · rw [← hi.shut c]; simp
    · exact ((hi.ended x).mp hd).2 (by rw [hw, hj]; rfl)

theorem mem_sentTo {id : Nat} {ls : List Bcast.Label} {x : Msg} (h : x ∈ sentTo id ls) : ∃ l1 l2 c ok, ls = l1 ++ .send x id c ok :: l2 := by
  unfold sentTo at h
  obtain ⟨l, hl, he⟩ := List.mem_filterMap.mp h
  obtain ⟨l1, l2, hs⟩ := List.append_of_mem hl
  cases l <;> simp at he
  obtain ⟨rfl, rfl⟩ := he
  exact ⟨l1, l2, _, _, hs⟩

/-- If a broadcast has returned before another is called, then everyone who is sent both is sent them in this order. -/
theorem C150_agree_partial {n : Nat} {home : Nat → Nat} {a b : List Bcast.Label} {s : Bcast.State} {x y : Msg} (h : Steps (Bcast.Step n home) {} (a ++ .start y :: b) s) (hx : .done x ∈ a) (id : Nat) :
    x ∉ sentTo id b ∧ y ∉ sentTo id a := by
  constructor
  · intro hm
    obtain ⟨l1, l2, c, ok, e⟩ := mem_sentTo hm
    rw [e, show a ++ Bcast.Label.start y :: (l1 ++ .send x id c ok :: l2) = (a ++ .start y :: l1) ++ [.send x id c ok] ++ l2 by simp] at h
    obtain ⟨t, h1, _⟩ := h.split
    exact (C150_registered h1).2.2.2 (by simp [hx])
  · intro hm
    obtain ⟨t, h1, h2⟩ := h.split
    cases h2 with
    | cons hs _ =>
      cases hs with
      | start g hj => exact absurd ((bcast_inv h1).old id _ hm) (by simp)

/-- Where broadcast `x` is on its way to connection `c`, which is registered as `id` and open. -/
structure Going (home : Nat → Nat) (x : Msg) (id c : Nat) (b : List Bcast.Label) (s : Bcast.State) : Prop where
  here : (id, c) ∈ s.tab (home id)
  opn : s.closed c = false
  way : .send x id c true ∈ b ∨ (∃ i, s.job x.who = .at x i ∧ i ≤ home id) ∨ ∃ i r, s.job x.who = .inn x i r ∧ (i < home id ∨ i = home id ∧ (id, c) ∈ r)

theorem going_step {n : Nat} {home : Nat → Nat} (hn : ∀ id, home id < n) {b : List Bcast.Label} {s t : Bcast.State} {l : Bcast.Label} {x : Msg} {id c : Nat}
    (hs : Bcast.Step n home s l t) (h1 : ∀ c', l ≠ .set id c') (h2 : l ≠ .del id) (h3 : l ≠ .close c) (hg : Going home x id c b s) : Going home x id c (b ++ [l]) t := by
  obtain ⟨here, opn, way⟩ := hg
  have keep : t.job x.who = s.job x.who → (.send x id c true ∈ b ++ [l] ∨ (∃ i, t.job x.who = .at x i ∧ i ≤ home id) ∨ ∃ i r, t.job x.who = .inn x i r ∧ (i < home id ∨ i = home id ∧ (id, c) ∈ r)) := by
    intro e
    rw [e]
    exact way.imp (fun h => by simp [h]) fun h => h
  have sent : .send x id c true ∈ b → (.send x id c true ∈ b ++ [l] ∨ (∃ i, t.job x.who = .at x i ∧ i ≤ home id) ∨ ∃ i r, t.job x.who = .inn x i r ∧ (i < home id ∨ i = home id ∧ (id, c) ∈ r)) :=
    fun h => .inl (by simp [h])
  cases hs with
  | set id' c' h =>
    have hne : id' ≠ id := fun e => h1 c' (by rw [e])
    refine ⟨?_, opn, keep rfl⟩
    dsimp only [Bcast.upd]
    split
    · rename_i e; simp [← e, here, Ne.symm hne]
    · exact here
  | del id' h =>
    have hne : id' ≠ id := fun e => h2 (by rw [e])
    refine ⟨?_, opn, keep rfl⟩
    dsimp only [Bcast.upd]
    split
    · rename_i e; simp [← e, here, Ne.symm hne]
    · exact here
  | close c' =>
    have hne : c ≠ c' := fun e => h3 (by rw [e])
    exact ⟨here, by simp [Bcast.upd, hne, opn], keep rfl⟩
  | start g hj =>
    refine ⟨here, opn, ?_⟩
    by_cases e : x.who = g
    · subst e
      rcases way with h | ⟨i, h, _⟩ | ⟨i, r, h, _⟩
      · exact sent h
      · rw [hj] at h; cases h
      · rw [hj] at h; cases h
    · exact keep (by simp [Bcast.upd, e])
  | lock g y i r hj hin hb =>
    refine ⟨here, opn, ?_⟩
    by_cases e : x.who = g
    · subst e
      rcases way with h | ⟨i', h, hle⟩ | ⟨i', r', h, _⟩
      · exact sent h
      · rw [hj] at h; injection h with e1 e2; subst e1 e2
        refine .inr (.inr ⟨i, r, by simp [Bcast.upd], ?_⟩)
        by_cases e : i = home id
        · exact .inr ⟨e, hb.mem_iff.mpr (e ▸ here)⟩
        · exact .inl (by omega)
      · rw [hj] at h; cases h
    · exact keep (by simp [Bcast.upd, e])
  | send g y i id' c' r hj =>
    refine ⟨here, opn, ?_⟩
    by_cases e : x.who = g
    · subst e
      rcases way with h | ⟨i', h, hle⟩ | ⟨i', r', h, hr⟩
      · exact sent h
      · rw [hj] at h; cases h
      · rw [hj] at h; injection h with e1 e2 e3; subst e1 e2 e3
        rcases hr with hr | ⟨hr, hm⟩
        · exact .inr (.inr ⟨i, r, by simp [Bcast.upd], .inl hr⟩)
        · rcases List.mem_cons.mp hm with hm | hm
          · injection hm with e1 e2; subst e1 e2; exact .inl (by simp [opn])
          · exact .inr (.inr ⟨i, r, by simp [Bcast.upd], .inr ⟨hr, hm⟩⟩)
    · exact keep (by simp [Bcast.upd, e])
  | unlock g y i hj =>
    refine ⟨here, opn, ?_⟩
    by_cases e : x.who = g
    · subst e
      rcases way with h | ⟨i', h, hle⟩ | ⟨i', r', h, hr⟩
      · exact sent h
      · rw [hj] at h; cases h
      · rw [hj] at h; injection h with e1 e2 e3; subst e1 e2 e3
        rcases hr with hr | ⟨_, hm⟩
        · exact .inr (.inl ⟨i + 1, by simp [Bcast.upd], hr⟩)
        · simp at hm
    · exact keep (by simp [Bcast.upd, e])
  | done g y hj =>
    refine ⟨here, opn, ?_⟩
    by_cases e : x.who = g
    · subst e
      rcases way with h | ⟨i', h, hle⟩ | ⟨i', r', h, hr⟩
      · exact sent h
      · rw [hj] at h; injection h with e1 e2; subst e1 e2
        exact absurd (hn id) (by omega)
      · rw [hj] at h; cases h
    · exact keep (by simp [Bcast.upd, e])

theorem going_run {n : Nat} {home : Nat → Nat} (hn : ∀ id, home id < n) {x : Msg} {id c : Nat} {s t : Bcast.State} {ls' : List Bcast.Label} (h : Steps (Bcast.Step n home) s ls' t) :
    ∀ {b : List Bcast.Label}, (∀ l ∈ ls', (∀ c', l ≠ .set id c') ∧ l ≠ .del id ∧ l ≠ .close c) → Going home x id c b s → Going home x id c (b ++ ls') t := by
  induction h with
  | nil => intro b _ hg; simpa using hg
  | cons hs _ ih =>
    intro b hl hg
    obtain ⟨h1, h2, h3⟩ := hl _ (List.mem_cons_self ..)
    have := ih (fun l hm => hl l (by simp [hm])) (going_step hn hs h1 h2 h3 hg)
    simpa using this

/-- A broadcast that has returned was sent, successfully, to every connection that was registered when it was called and stayed registered and open. -/
theorem C150_everyone {n : Nat} {home : Nat → Nat} (hn : ∀ id, home id < n) {a b : List Bcast.Label} {s : Bcast.State} {x : Msg} {id c : Nat}
    (h : Steps (Bcast.Step n home) {} (a ++ .start x :: (b ++ [.done x])) s) (h1 : regOf id a = some c) (h2 : .close c ∉ a) (h3 : ∀ l ∈ b, (∀ c', l ≠ .set id c') ∧ l ≠ .del id ∧ l ≠ .close c) :
    .send x id c true ∈ b := by
  obtain ⟨s1, hs1, hs2⟩ := h.split
  have hi := bcast_inv hs1
  cases hs2 with
  | cons hst hrest =>
    obtain ⟨s3, hb, hd⟩ := hrest.unsnoc
    have hg := going_run (x := x) (b := []) hn hb h3 (by
      cases hst with
      | start g hj => exact ⟨(hi.reg id c).mpr h1, by simpa using fun e => h2 ((hi.shut c).mp e), .inr (.inl ⟨0, by simp [Bcast.upd], Nat.zero_le _⟩)⟩)
    have hi3 := bcast_inv (((hs1.snoc hst).append hb))
    cases hd with
    | done g _ hj =>
      have hw := (hi3.own g x (by rw [hj]; rfl)).1
      rcases hg.way with h | ⟨i, h, hle⟩ | ⟨i, r, h, _⟩
      · simpa using h
      · rw [hw, hj] at h; injection h with _ e; subst e
        exact absurd (hn id) (by omega)
      · rw [hw, hj] at h; cases h

/-- While broadcast `x` has the lock of shard `i`: the IDs it has found there have been sent to or will be. -/
theorem batch_step {n : Nat} {home : Nat → Nat} {b : List Bcast.Label} {s t : Bcast.State} {l : Bcast.Label} {x : Msg} {i id : Nat} {o : Option Nat} (ho : ∀ g y, Job.msg (s.job g) = some y → y.who = g)
    (hs : Bcast.Step n home s l t) (hl : l ≠ .unlock x i) (hb : ∃ r, s.job x.who = .inn x i r ∧ ∀ c, ((id, c) ∈ r ∨ ∃ ok, .send x id c ok ∈ b) ↔ o = some c) :
    ∃ r, t.job x.who = .inn x i r ∧ ∀ c, ((id, c) ∈ r ∨ ∃ ok, .send x id c ok ∈ b ++ [l]) ↔ o = some c := by
  obtain ⟨r, hj, hr⟩ := hb
  have keep : t.job x.who = s.job x.who → (∀ id c ok, l ≠ .send x id c ok) → ∃ r, t.job x.who = .inn x i r ∧ ∀ c, ((id, c) ∈ r ∨ ∃ ok, .send x id c ok ∈ b ++ [l]) ↔ o = some c := by
    intro e1 e2
    refine ⟨r, e1.trans hj, fun c => ?_⟩
    rw [← hr c]
    simp [(e2 id c _).symm]
  cases hs with
  | set | del | close => exact keep rfl (by simp)
  | start g h =>
    by_cases e : x.who = g
    · rw [e, h] at hj; cases hj
    · exact keep (by simp [Bcast.upd, e]) (by simp)
  | lock g y k r' h _ _ =>
    by_cases e : x.who = g
    · rw [e, h] at hj; cases hj
    · exact keep (by simp [Bcast.upd, e]) (by simp)
  | unlock g y k h =>
    by_cases e : x.who = g
    · rw [e, h] at hj; cases hj; exact absurd rfl hl
    · exact keep (by simp [Bcast.upd, e]) (by simp)
  | done g y h =>
    by_cases e : x.who = g
    · rw [e, h] at hj; cases hj
    · exact keep (by simp [Bcast.upd, e]) (by simp)
  | send g y k id' c' r' h =>
    by_cases e : x.who = g
    · subst e
      rw [h] at hj
      cases hj
      refine ⟨r', by simp [Bcast.upd], fun c => ?_⟩
      rw [← hr c]
      simp only [List.mem_cons, List.mem_append, List.not_mem_nil, or_false, Prod.mk.injEq, Bcast.Label.send.injEq, true_and]
      constructor
      · rintro (h | ⟨ok, h | h⟩)
        · exact .inl (.inr h)
        · exact .inr ⟨ok, h⟩
        · exact .inl (.inl ⟨h.1, h.2.1⟩)
      · rintro ((h | h) | ⟨ok, h⟩)
        · exact .inr ⟨_, .inr ⟨h.1, h.2, rfl⟩⟩
        · exact .inl h
        · exact .inr ⟨ok, .inl h⟩
    · refine keep (by simp [Bcast.upd, e]) fun id c ok e' => ?_
      injection e' with e'
      subst e'
      exact e (ho g y (by rw [h]; rfl))

/-- Exactly: a broadcast is sent to the connections that are registered when it locks their shard, and to no others, before it unlocks it. -/
theorem C150_exact {n : Nat} {home : Nat → Nat} {a b : List Bcast.Label} {s : Bcast.State} {x : Msg} {id : Nat} (h : Steps (Bcast.Step n home) {} (a ++ .lock x (home id) :: (b ++ [.unlock x (home id)])) s)
    (hu : .unlock x (home id) ∉ b) (c : Nat) : (∃ ok, .send x id c ok ∈ b) ↔ regOf id a = some c := by
  obtain ⟨s1, hs1, hs2⟩ := h.split
  have hi := bcast_inv hs1
  cases hs2 with
  | @cons _ u _ _ _ hst hrest =>
    obtain ⟨s3, hb, hd⟩ := hrest.unsnoc
    have h0 : ∃ r, u.job x.who = .inn x (home id) r ∧ ∀ c, ((id, c) ∈ r ∨ ∃ ok, .send x id c ok ∈ ([] : List Bcast.Label)) ↔ regOf id a = some c := by
      cases hst with
      | lock g _ _ r hj _ hp =>
        have hw := (hi.own g x (by rw [hj]; rfl)).1
        exact ⟨r, by simp [Bcast.upd, hw], fun c => by rw [← hi.reg, ← hp.mem_iff]; simp⟩
    have run : ∀ (b' b0 : List Bcast.Label) (v w : Bcast.State) (a' : List Bcast.Label), Steps (Bcast.Step n home) {} a' v → Steps (Bcast.Step n home) v b' w → .unlock x (home id) ∉ b' →
        (∃ r, v.job x.who = .inn x (home id) r ∧ ∀ c, ((id, c) ∈ r ∨ ∃ ok, .send x id c ok ∈ b0) ↔ regOf id a = some c) →
        ∃ r, w.job x.who = .inn x (home id) r ∧ ∀ c, ((id, c) ∈ r ∨ ∃ ok, .send x id c ok ∈ b0 ++ b') ↔ regOf id a = some c := by
      intro b'
      induction b' with
      | nil => intro b0 v w a' _ hb _ h; cases hb; simpa using h
      | cons l b' ih =>
        intro b0 v w a' ha hb hn h
        cases hb with
        | cons hs hr =>
          have := ih (b0 ++ [l]) _ w (a' ++ [l]) (ha.snoc hs) hr (fun hm => hn (by simp [hm]))
            (batch_step (fun g y hy => ((bcast_inv ha).own g y hy).1) hs (fun e => hn (by simp [e])) h)
          simpa using this
    obtain ⟨r, hj, hr⟩ := run b [] u s3 (a ++ [.lock x (home id)]) (hs1.snoc hst) hb hu h0
    have hi3 := bcast_inv ((hs1.snoc hst).append hb)
    cases hd with
    | unlock g _ _ hj' =>
      have hw := (hi3.own g x (by rw [hj']; rfl)).1
      rw [hw, hj'] at hj
      cases hj
      simpa using hr c

/-- The goroutine goes on with broadcast `x`. -/
def bcActs (x : Msg) : Bcast.Label → Prop
  | .lock y _ => y = x
  | .send y _ _ _ => y = x
  | .unlock y _ => y = x
  | .done y => y = x
  | _ => False

/-- Broadcasts are made by those who began them. -/
def BcOwn (s : Bcast.State) : Prop := ∀ g x, Job.msg (s.job g) = some x → x.who = g

/-- What comes after `j`. -/
def BcNext (n : Nat) : Bcast.Job → Bcast.Job → Prop
  | .idle, _ => False
  | .at x i, j => (i < n ∧ ∃ b, j = .inn x i b) ∨ i = n ∧ j = .idle
  | .inn x i (_ :: b), j => j = .inn x i b
  | .inn x i [], j => j = .at x (i + 1)

theorem bcNext_step {n : Nat} {home : Nat → Nat} {s t : Bcast.State} {l : Bcast.Label} {x : Msg} (ho : BcOwn s) (hs : Bcast.Step n home s l t) (hx : Job.msg (s.job x.who) = some x) :
    BcOwn t ∧ ((¬ bcActs x l ∧ t.job x.who = s.job x.who) ∨ BcNext n (s.job x.who) (t.job x.who)) := by
  have own : ∀ g j, (∀ y, Job.msg j = some y → y.who = g) → BcOwn { s with job := Bcast.upd s.job g j } := by
    intro g j hj g' y hy
    dsimp only [Bcast.upd] at hy
    split at hy
    · rename_i e; subst e; exact hj y hy
    · exact ho g' y hy
  have other : ∀ g j y, s.job g = j → Job.msg j = some y → x.who ≠ g → y ≠ x := fun g j y h1 h2 hne e => hne (by rw [← e]; exact ho g y (h1 ▸ h2))
  cases hs with
  | set id c h => exact ⟨ho, .inl ⟨fun h => h, rfl⟩⟩
  | del id h => exact ⟨ho, .inl ⟨fun h => h, rfl⟩⟩
  | close c => exact ⟨ho, .inl ⟨fun h => h, rfl⟩⟩
  | start g h =>
    refine ⟨fun g' y hy => own g (.at ⟨g, s.said g⟩ 0) (by simp [Job.msg]) g' y hy, .inl ⟨fun h => h, ?_⟩⟩
    have : x.who ≠ g := fun e => by rw [e, h] at hx; simp [Job.msg] at hx
    simp [Bcast.upd, this]
  | lock g y i b h hin hb =>
    refine ⟨own g _ fun z hz => ho g z (by rw [h]; exact hz), ?_⟩
    by_cases e : x.who = g
    · subst e; right; simp [Bcast.upd, h, BcNext, hin]
    · exact .inl ⟨other g _ y h rfl e, by simp [Bcast.upd, e]⟩
  | send g y i id c b h =>
    refine ⟨own g _ fun z hz => ho g z (by rw [h]; exact hz), ?_⟩
    by_cases e : x.who = g
    · subst e; right; simp [Bcast.upd, h, BcNext]
    · exact .inl ⟨other g _ y h rfl e, by simp [Bcast.upd, e]⟩
  | unlock g y i h =>
    refine ⟨own g _ fun z hz => ho g z (by rw [h]; exact hz), ?_⟩
    by_cases e : x.who = g
    · subst e; right; simp [Bcast.upd, h, BcNext]
    · exact .inl ⟨other g _ y h rfl e, by simp [Bcast.upd, e]⟩
  | done g y h =>
    refine ⟨own g _ fun z hz => by simp [Job.msg] at hz, ?_⟩
    by_cases e : x.who = g
    · subst e; right; simp [Bcast.upd, h, BcNext]
    · exact .inl ⟨other g _ y h rfl e, by simp [Bcast.upd, e]⟩

theorem bc_leads {n : Nat} {home : Nat → Nat} (e : Exec (Bcast.Step n home)) {x : Msg} (hf : e.WeakFair (bcActs x)) {j : Bcast.Job} (hx : Job.msg j = some x) (hb : ∀ i, j = .at x i → i ≤ n)
    {k : Nat} (h : BcOwn (e.run k) ∧ (e.run k).job x.who = j) : ∃ m, k ≤ m ∧ BcOwn (e.run m) ∧ BcNext n j ((e.run m).job x.who) := by
  refine e.leads_weak hf (P := fun s => BcOwn s ∧ s.job x.who = j) (Q := fun s => BcOwn s ∧ BcNext n j (s.job x.who)) ?_ ?_ ?_ h
  · rintro s l t ⟨h1, h2⟩ hs
    obtain ⟨h3, h4⟩ := bcNext_step h1 hs (by rw [h2]; exact hx)
    rw [h2] at h4
    exact h4.imp (fun h => ⟨h3, h.2⟩) fun h => ⟨h3, h⟩
  · rintro s l t ⟨h1, h2⟩ hs hA
    obtain ⟨h3, h4⟩ := bcNext_step h1 hs (by rw [h2]; exact hx)
    rw [h2] at h4
    exact h4.elim (fun h => absurd hA h.1) fun h => ⟨h3, h⟩
  · rintro s ⟨h1, h2⟩
    cases j with
    | idle => simp [Job.msg] at hx
    | «at» y i =>
      simp [Job.msg] at hx; subst hx
      by_cases hi : i = n
      · subst hi; exact ⟨.done y, _, rfl, .done _ y h2⟩
      · exact ⟨.lock y i, _, rfl, .lock _ y i _ h2 (by have := hb i rfl; omega) (.refl _)⟩
    | inn y i b =>
      simp [Job.msg] at hx; subst hx
      cases b with
      | nil => exact ⟨.unlock y i, _, rfl, .unlock _ y i h2⟩
      | cons p b => exact ⟨.send y p.1 p.2 _, _, rfl, .send _ y i p.1 p.2 b h2⟩

/-- In every execution in which the goroutine gets to run (and its sends return), a broadcast returns, whatever others do to the table meanwhile. -/
theorem C150_returns {n : Nat} {home : Nat → Nat} (e : Exec (Bcast.Step n home)) (h0 : e.run 0 = {}) {x : Msg} (hf : e.WeakFair (bcActs x)) {k : Nat} (hk : e.act k = some (.start x)) :
    ∃ m, .done x ∈ e.trace m := by
  have hinv : ∀ m, BcastInv home (e.trace m) (e.run m) := fun m => bcast_inv (by have := e.steps m; rwa [h0] at this)
  have hstart : .start x ∈ e.trace (k + 1) := by show _ ∈ e.trace k ++ (e.act k).toList; simp [hk]
  have shards : ∀ d i m, n - i = d → i ≤ n → BcOwn (e.run m) → (e.run m).job x.who = .at x i → ∃ m', m ≤ m' ∧ (e.run m').job x.who = .idle := by
    intro d
    induction d with
    | zero =>
      intro i m hd hi ho hj
      obtain ⟨m1, h1, _, h2⟩ := bc_leads e hf (j := .at x i) rfl (fun i' h => by injection h with _ e; omega) ⟨ho, hj⟩
      rcases h2 with ⟨h2, _⟩ | ⟨_, h2⟩
      · omega
      · exact ⟨m1, h1, h2⟩
    | succ d ih =>
      intro i m hd hi ho hj
      have items : ∀ (b : List (Nat × Nat)) m, BcOwn (e.run m) → (e.run m).job x.who = .inn x i b → ∃ m', m ≤ m' ∧ BcOwn (e.run m') ∧ (e.run m').job x.who = .at x (i + 1) := by
        intro b
        induction b with
        | nil =>
          intro m ho hj
          exact bc_leads e hf (j := .inn x i []) rfl (fun i' h => by cases h) ⟨ho, hj⟩
        | cons p b ihb =>
          intro m ho hj
          obtain ⟨m1, h1, h2, h3⟩ := bc_leads e hf (j := .inn x i (p :: b)) rfl (fun i' h => by cases h) ⟨ho, hj⟩
          obtain ⟨m2, h4, h5⟩ := ihb m1 h2 h3
          exact ⟨m2, by omega, h5⟩
      obtain ⟨m1, h1, h2, h3⟩ := bc_leads e hf (j := .at x i) rfl (fun i' h => by injection h with _ e; omega) ⟨ho, hj⟩
      rcases h3 with ⟨_, b, h3⟩ | ⟨h3, _⟩
      · obtain ⟨m2, h4, h5, h6⟩ := items b m1 h2 h3
        obtain ⟨m3, h7, h8⟩ := ih (i + 1) m2 (by omega) (by omega) h5 h6
        exact ⟨m3, by omega, h8⟩
      · omega
  have hj : (e.run (k + 1)).job x.who = .at x 0 := by
    have hs := e.next k
    rw [hk] at hs
    generalize e.run (k + 1) = t at hs
    generalize e.run k = s at hs
    cases hs with
    | start g h => simp [Bcast.upd]
  obtain ⟨m, hm, hd⟩ := shards n 0 (k + 1) (by omega) (by omega) (fun g y hy => ((hinv (k + 1)).own g y hy).1) hj
  refine ⟨m, ((hinv m).ended x).mpr ⟨((hinv m).begun x).mp ?_, by rw [hd]; simp [Job.msg]⟩⟩
  have : ∀ a b : Nat, a ≤ b → ∀ l, l ∈ e.trace a → l ∈ e.trace b := by
    intro a b hab l hl
    induction hab with
    | refl => exact hl
    | step _ ih => show _ ∈ e.trace _ ++ _; simp [ih]
  exact this _ _ hm _ hstart

/-- Nothing but `job g` is different. -/
structure BcMoved (s t : Bcast.State) (g : Nat) (j : Bcast.Job) : Prop where
  tab : t.tab = s.tab
  closed : t.closed = s.closed
  job : t.job g = j
  rest : ∀ g', g' ≠ g → t.job g' = s.job g'

theorem moved_upd (s : Bcast.State) (g : Nat) (j : Bcast.Job) : BcMoved s { s with job := Bcast.upd s.job g j } g j :=
  ⟨rfl, rfl, by simp [Bcast.upd], fun g' h => by simp [Bcast.upd, h]⟩

/-- Parts of broadcasts. -/
def bcPart : Bcast.Label → Bool
  | .lock .. => true
  | .send .. => true
  | .unlock .. => true
  | .done _ => true
  | _ => false

/-- A run of parts of broadcasts in which `p` and `q` are sent `a` and `b`. -/
structure BcRun (n : Nat) (home : Nat → Nat) (p q : Nat) (s t : Bcast.State) (a b : List Msg) (ls : List Bcast.Label) : Prop where
  steps : Steps (Bcast.Step n home) s ls t
  parts : ls.all bcPart = true
  toP : sentTo p ls = a
  toQ : sentTo q ls = b

theorem BcRun.append {n : Nat} {home : Nat → Nat} {p q : Nat} {s t u : Bcast.State} {a b a' b' : List Msg} {ls ls' : List Bcast.Label} (h : BcRun n home p q s t a b ls) (h' : BcRun n home p q t u a' b' ls') :
    BcRun n home p q s u (a ++ a') (b ++ b') (ls ++ ls') :=
  ⟨h.steps.append h'.steps, by simp only [List.all_append, h.parts, h'.parts, Bool.and_self], by unfold sentTo; rw [List.filterMap_append]; exact congr (congrArg _ h.toP) h'.toP,
    by unfold sentTo; rw [List.filterMap_append]; exact congr (congrArg _ h.toQ) h'.toQ⟩

theorem bc_walk {n : Nat} {home : Nat → Nat} {p q g : Nat} {x : Msg} (d : Nat) : ∀ {s : Bcast.State} {i : Nat}, s.job g = .at x i → i + d ≤ n → (∀ k, i ≤ k → k < i + d → s.tab k = []) →
    ∃ ls t, BcRun n home p q s t [] [] ls ∧ BcMoved s t g (.at x (i + d)) := by
  induction d with
  | zero => intro s i hj _ _; exact ⟨[], s, ⟨.nil _, rfl, rfl, rfl⟩, rfl, rfl, hj, fun _ _ => rfl⟩
  | succ d ih =>
    intro s i hj hd he
    have e := he i (Nat.le_refl _) (by omega)
    obtain ⟨ls, t, h1, h2⟩ := ih (s := { s with job := Bcast.upd (Bcast.upd s.job g (.inn x i [])) g (.at x (i + 1)) }) (i := i + 1) (by simp [Bcast.upd]) (by omega) (fun k hk hk' => he k (by omega) (by omega))
    refine ⟨_, t, (⟨.cons (.lock g x i [] hj (by omega) (by rw [e])) (.cons (.unlock g x i (by simp [Bcast.upd])) (.nil _)), rfl, rfl, rfl⟩ : BcRun n home p q s _ [] [] _).append h1,
      h2.tab, h2.closed, by rw [h2.job]; congr 1; omega, fun g' hg => by rw [h2.rest g' hg]; simp [Bcast.upd, hg]⟩

theorem bc_lock {n : Nat} {home : Nat → Nat} {p q g i : Nat} {x : Msg} {s : Bcast.State} {b : List (Nat × Nat)} (hj : s.job g = .at x i) (hi : i < n) (hb : b.Perm (s.tab i)) :
    ∃ ls t, BcRun n home p q s t [] [] ls ∧ BcMoved s t g (.inn x i b) :=
  ⟨_, _, ⟨.cons (.lock g x i b hj hi hb) (.nil _), rfl, rfl, rfl⟩, moved_upd ..⟩

theorem bc_toP {n : Nat} {home : Nat → Nat} {p q g i c : Nat} {x : Msg} {s : Bcast.State} {b : List (Nat × Nat)} (hpq : p ≠ q) (hj : s.job g = .inn x i ((p, c) :: b)) :
    ∃ ls t, BcRun n home p q s t [x] [] ls ∧ BcMoved s t g (.inn x i b) :=
  ⟨_, _, ⟨.cons (.send g x i p c b hj) (.nil _), rfl, by simp [sentTo], by simp [sentTo, hpq]⟩, moved_upd ..⟩

theorem bc_toQ {n : Nat} {home : Nat → Nat} {p q g i c : Nat} {x : Msg} {s : Bcast.State} {b : List (Nat × Nat)} (hpq : p ≠ q) (hj : s.job g = .inn x i ((q, c) :: b)) :
    ∃ ls t, BcRun n home p q s t [] [x] ls ∧ BcMoved s t g (.inn x i b) :=
  ⟨_, _, ⟨.cons (.send g x i q c b hj) (.nil _), rfl, by simp [sentTo, Ne.symm hpq], by simp [sentTo]⟩, moved_upd ..⟩

theorem bc_unlock {n : Nat} {home : Nat → Nat} {p q g i : Nat} {x : Msg} {s : Bcast.State} (hj : s.job g = .inn x i []) : ∃ ls t, BcRun n home p q s t [] [] ls ∧ BcMoved s t g (.at x (i + 1)) :=
  ⟨_, _, ⟨.cons (.unlock g x i hj) (.nil _), rfl, rfl, rfl⟩, moved_upd ..⟩

theorem bc_done {n : Nat} {home : Nat → Nat} {p q g : Nat} {x : Msg} {s : Bcast.State} (hj : s.job g = .at x n) : ∃ ls t, BcRun n home p q s t [] [] ls ∧ BcMoved s t g .idle :=
  ⟨_, _, ⟨.cons (.done g x hj) (.nil _), rfl, rfl, rfl⟩, moved_upd ..⟩

/-- From shard `i` to the end, nobody being registered there. -/
theorem bc_rest {n : Nat} {home : Nat → Nat} {p q g i : Nat} {x : Msg} {s : Bcast.State} (hj : s.job g = .at x i) (hi : i ≤ n) (he : ∀ k, i ≤ k → s.tab k = []) :
    ∃ ls t, BcRun n home p q s t [] [] ls ∧ BcMoved s t g .idle := by
  obtain ⟨l1, s1, r1, m1⟩ := bc_walk (n := n) (home := home) (p := p) (q := q) (n - i) hj (by omega) (fun k h _ => he k h)
  have h1 := m1.job
  rw [show i + (n - i) = n by omega] at h1
  obtain ⟨l2, s2, r2, m2⟩ := bc_done (n := n) (home := home) (p := p) (q := q) h1
  exact ⟨_, s2, r1.append r2, m2.tab.trans m1.tab, m2.closed.trans m1.closed, m2.job, fun g' h => (m2.rest g' h).trans (m1.rest g' h)⟩

/-- After two IDs are registered and two goroutines have called `NotifyAll`. -/
def bcTwo (home : Nat → Nat) (p q : Nat) : Bcast.State :=
  { tab := Bcast.upd (Bcast.upd (fun _ => []) (home p) [(p, 5)]) (home q) ((q, 6) :: if home q = home p then [(p, 5)] else []),
    job := Bcast.upd (Bcast.upd (fun _ => .idle) 0 (.at ⟨0, 0⟩ 0)) 1 (.at ⟨1, 0⟩ 0), said := Bcast.upd (Bcast.upd (fun _ => 0) 0 1) 1 1 }

theorem bcTwo_steps {n : Nat} {home : Nat → Nat} {p q : Nat} (hpq : p ≠ q) : Steps (Bcast.Step n home) {} [.set p 5, .set q 6, .start ⟨0, 0⟩, .start ⟨1, 0⟩] (bcTwo home p q) := by
  have e : bcTwo home p q = { tab := Bcast.upd (Bcast.upd (fun _ => []) (home p) ((p, 5) :: ([] : List (Nat × Nat)).filter fun r => r.1 ≠ p)) (home q) ((q, 6) :: (Bcast.upd (fun _ => []) (home p) ((p, 5) :: ([] : List (Nat × Nat)).filter fun r => r.1 ≠ p) (home q)).filter fun r => r.1 ≠ q), job := Bcast.upd (Bcast.upd (fun _ => .idle) 0 (.at ⟨0, 0⟩ 0)) 1 (.at ⟨1, 0⟩ 0), said := Bcast.upd (Bcast.upd (fun _ => 0) 0 1) 1 1 } := by
    unfold bcTwo
    congr 3
    by_cases e : home q = home p <;> simp [Bcast.upd, e, hpq]
  rw [e]
  exact .cons (.set p 5 (by simp)) (.cons (.set q 6 (by simp)) (.cons (.start 0 rfl) (.cons (.start 1 rfl) (.nil _))))

theorem BcMoved.trans {s t u : Bcast.State} {g : Nat} {j k : Bcast.Job} (h : BcMoved s t g j) (h' : BcMoved t u g k) : BcMoved s u g k :=
  ⟨h'.tab.trans h.tab, h'.closed.trans h.closed, h'.job, fun g' e => (h'.rest g' e).trans (h.rest g' e)⟩

theorem bc_visitP {n : Nat} {home : Nat → Nat} {p q g k i c : Nat} {x : Msg} {s : Bcast.State} (hpq : p ≠ q) (hj : s.job g = .at x k) (hk : k ≤ i) (hi : i < n) (ht : s.tab i = [(p, c)])
    (he : ∀ m, k ≤ m → m < i → s.tab m = []) : ∃ ls t, BcRun n home p q s t [x] [] ls ∧ BcMoved s t g (.at x (i + 1)) := by
  obtain ⟨l1, s1, r1, m1⟩ := bc_walk (n := n) (home := home) (p := p) (q := q) (i - k) hj (by omega) (fun m h h' => he m h (by omega))
  have h1 := m1.job
  rw [show k + (i - k) = i by omega] at h1
  obtain ⟨l2, s2, r2, m2⟩ := bc_lock (n := n) (home := home) (p := p) (q := q) h1 hi (b := [(p, c)]) (by rw [m1.tab, ht])
  obtain ⟨l3, s3, r3, m3⟩ := bc_toP (n := n) (home := home) hpq m2.job
  obtain ⟨l4, s4, r4, m4⟩ := bc_unlock (n := n) (home := home) (p := p) (q := q) m3.job
  exact ⟨_, s4, ((r1.append r2).append r3).append r4, ((m1.trans m2).trans m3).trans m4⟩

theorem BcRun.swap {n : Nat} {home : Nat → Nat} {p q : Nat} {s t : Bcast.State} {a b : List Msg} {ls : List Bcast.Label} (h : BcRun n home p q s t a b ls) : BcRun n home q p s t b a ls :=
  ⟨h.steps, h.parts, h.toQ, h.toP⟩

/-- One goroutine stays behind between the shards of `p` and `q`, the other does not. -/
theorem bc_cross {n : Nat} {home : Nat → Nat} {p q g g' i j c c' : Nat} {x x' : Msg} {s : Bcast.State} (hpq : p ≠ q) (hg : g ≠ g') (hij : i < j) (hjn : j < n) (hp : s.tab i = [(p, c)]) (hq : s.tab j = [(q, c')])
    (he : ∀ m, m ≠ i → m ≠ j → s.tab m = []) (hx : s.job g = .at x 0) (hx' : s.job g' = .at x' 0) :
    ∃ ls t, BcRun n home p q s t [x, x'] [x', x] ls ∧ t.job g = .idle ∧ t.job g' = .idle ∧ ∀ k, k ≠ g → k ≠ g' → t.job k = s.job k := by
  obtain ⟨l1, s1, r1, m1⟩ := bc_visitP (n := n) (home := home) hpq hx (Nat.zero_le i) (by omega) hp (fun m _ h => he m (by omega) (by omega))
  obtain ⟨l2, s2, r2, m2⟩ := bc_visitP (n := n) (home := home) (s := s1) hpq ((m1.rest g' (Ne.symm hg)).trans hx') (Nat.zero_le i) (by omega) (by rw [m1.tab]; exact hp)
    (fun m _ h => by rw [m1.tab]; exact he m (by omega) (by omega))
  have t2 : s2.tab = s.tab := m2.tab.trans m1.tab
  obtain ⟨l3, s3, r3, m3⟩ := bc_visitP (n := n) (home := home) (s := s2) (Ne.symm hpq) m2.job (show i + 1 ≤ j by omega) hjn (by rw [t2]; exact hq) (fun m h h' => by rw [t2]; exact he m (by omega) (by omega))
  have t3 : s3.tab = s.tab := m3.tab.trans t2
  obtain ⟨l4, s4, r4, m4⟩ := bc_rest (n := n) (home := home) (p := p) (q := q) m3.job (by omega) (fun m h => by rw [t3]; exact he m (by omega) (by omega))
  have t4 : s4.tab = s.tab := m4.tab.trans t3
  have j4 : s4.job g = .at x (i + 1) := by rw [m4.rest g hg, m3.rest g hg, m2.rest g hg, m1.job]
  obtain ⟨l5, s5, r5, m5⟩ := bc_visitP (n := n) (home := home) (s := s4) (Ne.symm hpq) j4 (show i + 1 ≤ j by omega) hjn (by rw [t4]; exact hq) (fun m h h' => by rw [t4]; exact he m (by omega) (by omega))
  have t5 : s5.tab = s.tab := m5.tab.trans t4
  obtain ⟨l6, s6, r6, m6⟩ := bc_rest (n := n) (home := home) (p := p) (q := q) m5.job (by omega) (fun m h => by rw [t5]; exact he m (by omega) (by omega))
  refine ⟨_, s6, ((((r1.append r2).append r3.swap).append r4).append r5.swap).append r6, m6.job, ?_, fun k h h' => ?_⟩
  · rw [m6.rest g' (Ne.symm hg), m5.rest g' (Ne.symm hg), m4.job]
  · rw [m6.rest k h, m5.rest k h, m4.rest k h', m3.rest k h', m2.rest k h', m1.rest k h]

/-- **C150 fails: different orders.** However IDs are spread over the shards: two connections that are registered all the time can be sent two overlapping broadcasts in different orders. -/
theorem C150_order_refuted {n : Nat} {home : Nat → Nat} (hn : ∀ id, home id < n) {p q : Nat} (hpq : p ≠ q) : ∃ ls t, Steps (Bcast.Step n home) {} ([.set p 5, .set q 6, .start ⟨0, 0⟩, .start ⟨1, 0⟩] ++ ls) t ∧
    ls.all bcPart = true ∧ (∀ g, t.job g = .idle) ∧ sentTo p ls = [⟨0, 0⟩, ⟨1, 0⟩] ∧ sentTo q ls = [⟨1, 0⟩, ⟨0, 0⟩] := by
  suffices H : ∃ ls t, BcRun n home p q (bcTwo home p q) t [⟨0, 0⟩, ⟨1, 0⟩] [⟨1, 0⟩, ⟨0, 0⟩] ls ∧ t.job 0 = .idle ∧ t.job 1 = .idle ∧ ∀ k, k ≠ 0 → k ≠ 1 → t.job k = (bcTwo home p q).job k by
    obtain ⟨ls, t, r, h0, h1, h2⟩ := H
    refine ⟨ls, t, (bcTwo_steps hpq).append r.steps, r.parts, fun g => ?_, r.toP, r.toQ⟩
    by_cases e0 : g = 0
    · rw [e0]; exact h0
    by_cases e1 : g = 1
    · rw [e1]; exact h1
    rw [h2 g e0 e1]
    simp [bcTwo, Bcast.upd, e0, e1]
  have j0 : (bcTwo home p q).job 0 = .at ⟨0, 0⟩ 0 := by simp [bcTwo, Bcast.upd]
  have j1 : (bcTwo home p q).job 1 = .at ⟨1, 0⟩ 0 := by simp [bcTwo, Bcast.upd]
  rcases Nat.lt_trichotomy (home p) (home q) with h | h | h
  · exact bc_cross (c := 5) (c' := 6) hpq (by decide) h (hn q) (by simp [bcTwo, Bcast.upd, Nat.ne_of_lt h]) (by simp [bcTwo, Bcast.upd, Nat.ne_of_gt h])
      (fun m h1 h2 => by simp [bcTwo, Bcast.upd, h1, h2]) j0 j1
  · -- one shard, two orders
    have ht : (bcTwo home p q).tab (home p) = [(q, 6), (p, 5)] := by simp [bcTwo, Bcast.upd, h]
    have he : ∀ m, m ≠ home p → (bcTwo home p q).tab m = [] := fun m hm => by simp [bcTwo, Bcast.upd, hm, ← h]
    obtain ⟨l1, s1, r1, m1⟩ := bc_walk (n := n) (home := home) (p := p) (q := q) (home p) j0 (by have := hn p; omega) (fun m _ h => he m (by omega))
    have h1 := m1.job
    rw [Nat.zero_add] at h1
    obtain ⟨l2, s2, r2, m2⟩ := bc_lock (n := n) (home := home) (p := p) (q := q) h1 (hn p) (b := [(p, 5), (q, 6)]) (by rw [m1.tab, ht]; exact .swap ..)
    obtain ⟨l3, s3, r3, m3⟩ := bc_toP (n := n) (home := home) hpq m2.job
    have a3 := (m1.trans m2).trans m3
    obtain ⟨l4, s4, r4, m4⟩ := bc_walk (n := n) (home := home) (p := p) (q := q) (home p) ((a3.rest 1 (by decide)).trans j1) (by have := hn p; omega) (fun m _ h => by rw [a3.tab]; exact he m (by omega))
    have h4 := m4.job
    rw [Nat.zero_add] at h4
    obtain ⟨l5, s5, r5, m5⟩ := bc_lock (n := n) (home := home) (p := p) (q := q) h4 (hn p) (b := [(q, 6), (p, 5)]) (by rw [m4.tab, a3.tab, ht])
    obtain ⟨l6, s6, r6, m6⟩ := bc_toQ (n := n) (home := home) hpq m5.job
    obtain ⟨l7, s7, r7, m7⟩ := bc_toP (n := n) (home := home) hpq m6.job
    obtain ⟨l8, s8, r8, m8⟩ := bc_unlock (n := n) (home := home) (p := p) (q := q) m7.job
    have a8 := (((m4.trans m5).trans m6).trans m7).trans m8
    obtain ⟨l9, s9, r9, m9⟩ := bc_rest (n := n) (home := home) (p := p) (q := q) m8.job (hn p) (fun m h => by rw [a8.tab, a3.tab]; exact he m (by omega))
    have a9 := a8.trans m9
    obtain ⟨l10, s10, r10, m10⟩ := bc_toQ (n := n) (home := home) hpq ((a9.rest 0 (by decide)).trans a3.job)
    obtain ⟨l11, s11, r11, m11⟩ := bc_unlock (n := n) (home := home) (p := p) (q := q) m10.job
    have a11 := m10.trans m11
    obtain ⟨l12, s12, r12, m12⟩ := bc_rest (n := n) (home := home) (p := p) (q := q) m11.job (hn p) (fun m h => by rw [a11.tab, a9.tab, a3.tab]; exact he m (by omega))
    have a12 := a11.trans m12
    refine ⟨_, s12, ((((((((((r1.append r2).append r3).append r4).append r5).append r6).append r7).append r8).append r9).append r10).append r11).append r12, a12.job, ?_, fun k h h' => ?_⟩
    · rw [a12.rest 1 (by decide), a9.job]
    · rw [a12.rest k h, a9.rest k h', a3.rest k h]
  · obtain ⟨ls, t, r, h0, h1, h2⟩ := bc_cross (n := n) (home := home) (c := 6) (c' := 5) (Ne.symm hpq) (show 1 ≠ 0 by decide) h (hn p) (by simp [bcTwo, Bcast.upd, Nat.ne_of_lt h])
      (by simp [bcTwo, Bcast.upd, Nat.ne_of_gt h]) (fun m h1 h2 => by simp [bcTwo, Bcast.upd, h1, h2]) j1 j0
    exact ⟨ls, t, r.swap, h1, h0, fun k e e' => h2 k e' e⟩

/-- Two IDs in one shard: a broadcast that has returned; meanwhile a third ID is registered and removed, and another broadcast has begun. -/
example : ∃ a b s, Steps (Bcast.Step 2 fun id => id % 2) {} (a ++ .start ⟨0, 0⟩ :: (b ++ [.done ⟨0, 0⟩])) s ∧ regOf 3 a = some 6 ∧ .close 6 ∉ a ∧
    (∀ l ∈ b, (∀ c', l ≠ .set 3 c') ∧ l ≠ .del 3 ∧ l ≠ .close 6) ∧ .send ⟨0, 0⟩ 1 5 false ∈ b := by
  refine ⟨[.set 1 5, .set 3 6], [.set 2 7, .close 5, .lock ⟨0, 0⟩ 0, .send ⟨0, 0⟩ 2 7 true, .unlock ⟨0, 0⟩ 0, .del 2, .start ⟨1, 0⟩, .lock ⟨0, 0⟩ 1, .send ⟨0, 0⟩ 1 5 false, .send ⟨0, 0⟩ 3 6 true, .unlock ⟨0, 0⟩ 1], _,
    .cons (.set 1 5 (by simp)) <| .cons (.set 3 6 (by simp)) <| .cons (.start 0 rfl) <| .cons (.set 2 7 ?_) <| .cons (.close 5) <| .cons (.lock 0 ⟨0, 0⟩ 0 [(2, 7)] rfl (by decide) (.refl _)) <|
      .cons (.send 0 ⟨0, 0⟩ 0 2 7 [] rfl) <| .cons (.unlock 0 ⟨0, 0⟩ 0 rfl) <| .cons (.del 2 ?_) <| .cons (.start 1 rfl) <| .cons (.lock 0 ⟨0, 0⟩ 1 [(1, 5), (3, 6)] rfl (by decide) (.swap ..)) <|
      .cons (.send 0 ⟨0, 0⟩ 1 1 5 [(3, 6)] rfl) <| .cons (.send 0 ⟨0, 0⟩ 1 3 6 [] rfl) <| .cons (.unlock 0 ⟨0, 0⟩ 1 rfl) <| .cons (.done 0 ⟨0, 0⟩ rfl) (.nil _), rfl, by simp, by simp, by simp⟩
  all_goals
    intro g x b
    simp only [Bcast.upd]
    repeat' split
    all_goals simp

/-- The hypotheses of `C150_agree_partial`: two broadcasts of two goroutines, one after the other. -/
example : ∃ a b s, Steps (Bcast.Step 1 fun _ => 0) {} (a ++ .start ⟨1, 0⟩ :: b) s ∧ .done ⟨0, 0⟩ ∈ a ∧ ⟨0, 0⟩ ∈ sentTo 1 a ∧ ⟨1, 0⟩ ∈ sentTo 1 b :=
  ⟨[.set 1 5, .start ⟨0, 0⟩, .lock ⟨0, 0⟩ 0, .send ⟨0, 0⟩ 1 5 true, .unlock ⟨0, 0⟩ 0, .done ⟨0, 0⟩], [.lock ⟨1, 0⟩ 0, .send ⟨1, 0⟩ 1 5 true], _,
    .cons (.set 1 5 (by simp)) <| .cons (.start 0 rfl) <| .cons (.lock 0 ⟨0, 0⟩ 0 [(1, 5)] rfl (by decide) (.refl _)) <| .cons (.send 0 ⟨0, 0⟩ 0 1 5 [] rfl) <| .cons (.unlock 0 ⟨0, 0⟩ 0 rfl) <|
      .cons (.done 0 ⟨0, 0⟩ rfl) <| .cons (.start 1 rfl) <| .cons (.lock 1 ⟨1, 0⟩ 0 [(1, 5)] rfl (by decide) (.refl _)) <| .cons (.send 1 ⟨1, 0⟩ 0 1 5 [] rfl) (.nil _), by simp, by simp [sentTo], by simp [sentTo]⟩

/-- The hypotheses of `C150_exact`: one ID is set before the lock and one never. -/
example : ∃ a b s, Steps (Bcast.Step 1 fun _ => 0) {} (a ++ .lock ⟨0, 0⟩ 0 :: (b ++ [.unlock ⟨0, 0⟩ 0])) s ∧ .unlock ⟨0, 0⟩ 0 ∉ b ∧ regOf 1 a = some 5 ∧ regOf 2 a = none :=
  ⟨[.start ⟨0, 0⟩, .set 1 5], [.send ⟨0, 0⟩ 1 5 true], _,
    .cons (.start 0 rfl) <| .cons (.set 1 5 (by intro g x b; simp only [Bcast.upd]; split <;> simp)) <| .cons (.lock 0 ⟨0, 0⟩ 0 [(1, 5)] rfl (by decide) (.refl _)) <| .cons (.send 0 ⟨0, 0⟩ 0 1 5 [] rfl) <| .cons (.unlock 0 ⟨0, 0⟩ 0 rfl) (.nil _),
    by simp, rfl, rfl⟩

/-- The hypotheses of `C150_returns`. -/
example : ∃ e : Exec (Bcast.Step 1 fun _ => 0), e.run 0 = {} ∧ (∀ x, e.WeakFair (bcActs x)) ∧ e.act 1 = some (.start ⟨0, 0⟩) := by
  obtain ⟨e, e1, e2, _, e4⟩ := Exec.ofSteps (step := Bcast.Step 1 fun _ => 0) (s := {}) (ls := [.set 1 5, .start ⟨0, 0⟩, .lock ⟨0, 0⟩ 0, .send ⟨0, 0⟩ 1 5 true, .unlock ⟨0, 0⟩ 0, .done ⟨0, 0⟩])
    (.cons (.set 1 5 (by simp)) <| .cons (.start 0 rfl) <| .cons (.lock 0 ⟨0, 0⟩ 0 [(1, 5)] rfl (by decide) (.refl _)) <| .cons (.send 0 ⟨0, 0⟩ 0 1 5 [] rfl) <| .cons (.unlock 0 ⟨0, 0⟩ 0 rfl) <|
      .cons (.done 0 ⟨0, 0⟩ rfl) (.nil _))
  refine ⟨e, e1, fun x => Exec.weakFair_of_end e4 ?_, by rw [e2]; rfl⟩
  rintro ⟨l, t, hA, hs⟩
  cases hs with
  | lock g _ _ _ h | send g _ _ _ _ _ h | unlock g _ _ h | done g _ h =>
    revert h
    simp only [Bcast.upd]
    repeat' split
    all_goals simp
  | _ => exact hA

end Zinx.Props
