import Verif.Model.Chat
import Verif.Lemmas.ExecOf

namespace Zinx.Props
open Zinx Zinx.Chat
open scoped List

/-! ## C113: the world chat -/

/-- The lines that reach player `q`, in order. -/
def hears (q : Nat) (ls : List Chat.Label) : List Line :=
  ls.filterMap fun | .tell _ x q' => if q' = q then some x else none | _ => none

/-- The lines worker `w` has taken, in order. -/
def saysOf (w : Nat) (ls : List Chat.Label) : List Line :=
  ls.filterMap fun | .say w' x => if w' = w then some x else none | _ => none

/-- The line a worker is busy with. -/
def openLine : Job → List Line
  | .idle => []
  | .begun x => [x]
  | .found x => [x]
  | .telling x _ => [x]

/-- That line, if it is already past player `q`. -/
def pastLine (q : Nat) : Job → List Line
  | .telling x b => if q ∈ b then [] else [x]
  | _ => []

/-- Lines heard of the speakers of worker `w`. -/
def hearsOf (wid : Nat → Nat) (w q : Nat) (ls : List Chat.Label) : List Line := (hears q ls).filter fun x => wid x.who = w

structure ChatInv (wid : Nat → Nat) (ls : List Chat.Label) (s : Chat.State) : Prop where
  nodup : s.online.Nodup
  came : ∀ q ∈ s.online, s.came q = true
  taken : ∀ w, ∀ x ∈ saysOf w ls, wid x.who = w ∧ x.n < s.said x.who
  once : ∀ w, (saysOf w ls).Nodup
  inorder : ∀ w, (saysOf w ls).Pairwise fun x y => x.who = y.who → x.n < y.n
  loop : ∀ w x b, s.job w = .telling x b → b.Nodup
  told : ∀ w q, ∃ a, saysOf w ls = a ++ openLine (s.job w) ∧ hearsOf wid w q ls <+ a ++ pastLine q (s.job w)

theorem hears_snoc (q : Nat) (ls : List Chat.Label) (l : Chat.Label) : hears q (ls ++ [l]) = hears q ls ++ (match l with | .tell _ x q' => if q' = q then [x] else [] | _ => []) := by
  cases l <;> simp [hears, List.filterMap_append]
  split <;> simp_all

theorem says_snoc (w : Nat) (ls : List Chat.Label) (l : Chat.Label) : saysOf w (ls ++ [l]) = saysOf w ls ++ (match l with | .say w' x => if w' = w then [x] else [] | _ => []) := by
  cases l <;> simp [saysOf, List.filterMap_append]
  split <;> simp_all

theorem hearsOf_snoc (wid : Nat → Nat) (w q : Nat) (ls : List Chat.Label) (l : Chat.Label) :
    hearsOf wid w q (ls ++ [l]) = hearsOf wid w q ls ++ (match l with | .tell _ x q' => if q' = q ∧ wid x.who = w then [x] else [] | _ => []) := by
  unfold hearsOf
  rw [hears_snoc, List.filter_append]
  cases l <;> simp
  split <;> simp_all [List.filter_cons]

theorem chat_step {wid : Nat → Nat} {ls : List Chat.Label} {s t : Chat.State} {l : Chat.Label} (h : ChatInv wid ls s) (hs : Chat.Step wid s l t) : ChatInv wid (ls ++ [l]) t := by
  obtain ⟨nodup, came, taken, once, inorder, loop, told⟩ := h
  have mineOf : ∀ w x, openLine (s.job w) = [x] → wid x.who = w := by
    intro w x hx
    obtain ⟨a, h1, _⟩ := told w 0
    exact (taken w x (by rw [h1, hx]; simp)).1
  cases hs with
  | join q h =>
    refine ⟨?_, ?_, ?_, ?_, ?_, ?_, ?_⟩ <;> simp only [says_snoc, hearsOf_snoc, List.append_nil, Chat.upd]
    · rw [List.nodup_append]
      refine ⟨nodup, by simp, ?_⟩
      intro a ha b hb
      simp at hb
      subst hb
      intro e
      subst e
      rw [came _ ha] at h; cases h
    · grind
    · exact taken
    · exact once
    · exact inorder
    · exact loop
    · exact told
  | close q h =>
    refine ⟨nodup, came, ?_, ?_, ?_, loop, ?_⟩ <;> simp only [says_snoc, hearsOf_snoc, List.append_nil]
    · exact taken
    · exact once
    · exact inorder
    · exact told
  | quit q h =>
    refine ⟨nodup.erase q, fun p hp => came p (List.mem_of_mem_erase hp), ?_, ?_, ?_, loop, ?_⟩ <;> simp only [says_snoc, hearsOf_snoc, List.append_nil]
    · exact taken
    · exact once
    · exact inorder
    · exact told
  | say p hc h =>
    refine ⟨nodup, came, ?_, ?_, ?_, ?_, ?_⟩ <;> simp only [says_snoc, hearsOf_snoc, List.append_nil, Chat.upd]
    · intro w x hx
      rw [List.mem_append] at hx
      rcases hx with hx | hx
      · have := taken w x hx
        refine ⟨this.1, ?_⟩
        split <;> grind
      · split at hx <;> grind
    · intro w
      split
      · rename_i hw
        rw [List.nodup_append]
        refine ⟨once w, by simp, ?_⟩
        intro a ha b hb e
        simp at hb
        subst e
        have := (taken w a ha).2
        rw [hb] at this
        simp at this
      · simpa using once w
    · intro w
      split
      · rw [List.pairwise_append]
        refine ⟨inorder w, by simp, ?_⟩
        intro a ha b hb e
        simp at hb
        subst hb
        have := (taken w a ha).2
        simp only at e ⊢
        rw [e] at this
        exact this
      · simpa using inorder w
    · grind
    · intro w q
      obtain ⟨a, h1, h2⟩ := told w q
      by_cases hw : w = wid p
      · subst hw
        rw [h] at h1 h2
        simp only [openLine, pastLine, List.append_nil] at h1 h2
        refine ⟨a, ?_, ?_⟩
        · simp [openLine, h1]
        · simpa [pastLine] using h2
      · exact ⟨a, by simp [hw, Ne.symm hw, h1], by simpa [hw] using h2⟩
  | find w' x h ho =>
    refine ⟨nodup, came, ?_, ?_, ?_, ?_, ?_⟩ <;> simp only [says_snoc, hearsOf_snoc, List.append_nil, Chat.upd]
    · exact taken
    · exact once
    · exact inorder
    · grind
    · intro w q
      obtain ⟨a, h1, h2⟩ := told w q
      by_cases hw : w = w'
      · subst hw
        rw [h] at h1 h2
        exact ⟨a, by simpa [openLine] using h1, by simpa [pastLine] using h2⟩
      · exact ⟨a, by simpa [hw] using h1, by simpa [hw] using h2⟩
  | nobody w' x h ho =>
    refine ⟨nodup, came, ?_, ?_, ?_, ?_, ?_⟩ <;> simp only [says_snoc, hearsOf_snoc, List.append_nil, Chat.upd]
    · exact taken
    · exact once
    · exact inorder
    · grind
    · intro w q
      obtain ⟨a, h1, h2⟩ := told w q
      by_cases hw : w = w'
      · subst hw
        rw [h] at h1 h2
        simp only [openLine, pastLine, List.append_nil] at h1 h2
        exact ⟨a ++ [x], by simpa [openLine] using h1, by simpa [pastLine] using h2.trans (List.sublist_append_left _ _)⟩
      · exact ⟨a, by simpa [hw] using h1, by simpa [hw] using h2⟩
  | snap w' x b h hb =>
    refine ⟨nodup, came, ?_, ?_, ?_, ?_, ?_⟩ <;> simp only [says_snoc, hearsOf_snoc, List.append_nil, Chat.upd]
    · exact taken
    · exact once
    · exact inorder
    · have := hb.nodup_iff.2 nodup
      grind
    · intro w q
      obtain ⟨a, h1, h2⟩ := told w q
      by_cases hw : w = w'
      · subst hw
        rw [h] at h1 h2
        simp only [openLine, pastLine, List.append_nil] at h1 h2
        refine ⟨a, by simpa [openLine] using h1, ?_⟩
        simp only [if_true]
        exact h2.trans (List.sublist_append_left _ _)
      · exact ⟨a, by simpa [hw] using h1, by simpa [hw] using h2⟩
  | tell w' x q' b h ho =>
    refine ⟨nodup, came, ?_, ?_, ?_, ?_, ?_⟩ <;> simp only [says_snoc, hearsOf_snoc, List.append_nil, Chat.upd]
    · exact taken
    · exact once
    · exact inorder
    · intro w y c hj
      by_cases hw : w = w'
      · subst hw
        simp at hj
        have := loop w x (q' :: b) h
        rw [← hj.2]
        exact (List.nodup_cons.1 this).2
      · simp [hw] at hj; exact loop w y c hj
    · intro w q
      obtain ⟨a, h1, h2⟩ := told w q
      have hx := mineOf w' x (by rw [h]; rfl)
      by_cases hw : w = w'
      · subst hw
        rw [h] at h1 h2
        have hn := List.nodup_cons.1 (loop w x (q' :: b) h)
        simp only [openLine, pastLine] at h1 h2
        refine ⟨a, by simpa [openLine] using h1, ?_⟩
        by_cases hq : q = q'
        · subst hq
          simp only [List.mem_cons, true_or, if_true, List.append_nil] at h2
          simp only [hx, and_self, if_true, pastLine, hn.1, if_false]
          exact h2.append (List.Sublist.refl _)
        · simp only [Ne.symm hq, false_and, if_false, List.append_nil, if_true, pastLine]
          simpa [hq] using h2
      · refine ⟨a, by simpa [hw] using h1, ?_⟩
        rw [hx]
        simpa [hw, Ne.symm hw] using h2
  | miss w' x q' b h ho =>
    refine ⟨nodup, came, ?_, ?_, ?_, ?_, ?_⟩ <;> simp only [says_snoc, hearsOf_snoc, List.append_nil, Chat.upd]
    · exact taken
    · exact once
    · exact inorder
    · intro w y c hj
      by_cases hw : w = w'
      · subst hw
        simp at hj
        have := loop w x (q' :: b) h
        rw [← hj.2]
        exact (List.nodup_cons.1 this).2
      · simp [hw] at hj; exact loop w y c hj
    · intro w q
      obtain ⟨a, h1, h2⟩ := told w q
      by_cases hw : w = w'
      · subst hw
        rw [h] at h1 h2
        simp only [openLine, pastLine] at h1 h2
        refine ⟨a, by simpa [openLine] using h1, ?_⟩
        simp only [if_true, pastLine]
        by_cases hq : q = q'
        · subst hq
          simp only [List.mem_cons, true_or, if_true, List.append_nil] at h2
          exact h2.trans (List.sublist_append_left _ _)
        · simpa [hq] using h2
      · exact ⟨a, by simpa [hw] using h1, by simpa [hw] using h2⟩
  | done w' x h =>
    refine ⟨nodup, came, ?_, ?_, ?_, ?_, ?_⟩ <;> simp only [says_snoc, hearsOf_snoc, List.append_nil, Chat.upd]
    · exact taken
    · exact once
    · exact inorder
    · grind
    · intro w q
      obtain ⟨a, h1, h2⟩ := told w q
      by_cases hw : w = w'
      · subst hw
        rw [h] at h1 h2
        exact ⟨a ++ [x], by simpa [openLine] using h1, by simpa [pastLine] using h2⟩
      · exact ⟨a, by simpa [hw] using h1, by simpa [hw] using h2⟩

theorem chat_inv {wid : Nat → Nat} {ls : List Chat.Label} {s : Chat.State} (h : Steps (Chat.Step wid) Chat.init ls s) : ChatInv wid ls s := by
  refine h.invariant_trace (P := fun ls s => ChatInv wid ls s) (fun ls s l t hi hs => chat_step hi hs) ?_
  refine ⟨by simp [Chat.init], by simp [Chat.init], by simp [saysOf], by simp [saysOf], by simp [saysOf], by simp [Chat.init], fun w q => ⟨[], by simp [saysOf, openLine, Chat.init], by simp [hearsOf, hears]⟩⟩

theorem nodup_of_filters {f : Line → Nat} {l : List Line} (h : ∀ w, (l.filter fun x => f x = w).Nodup) : l.Nodup := by
  rw [List.nodup_iff_count]
  intro x
  have := List.nodup_iff_count.1 (h (f x)) x
  rwa [List.count_filter (by simp)] at this

/-- **C113 (order, once).** Whatever the interleaving: nobody hears a line twice; what a player hears of the speakers of one worker comes in the order in which that worker took the lines; so of
each speaker, in the order in which that one spoke. -/
theorem C113_order_partial {wid : Nat → Nat} {ls : List Chat.Label} {s : Chat.State} (h : Steps (Chat.Step wid) Chat.init ls s) (q : Nat) :
    (hears q ls).Nodup ∧ (∀ w, (hears q ls).filter (fun x => wid x.who = w) <+ saysOf w ls) ∧ ∀ p, ((hears q ls).filter fun x => x.who = p).Pairwise fun x y => x.n < y.n := by
  have hi := chat_inv h
  have hsub : ∀ w, hearsOf wid w q ls <+ saysOf w ls := by
    intro w
    obtain ⟨a, h1, h2⟩ := hi.told w q
    rw [h1]
    refine h2.trans ((List.append_sublist_append_left _).2 ?_)
    cases s.job w <;> simp [pastLine, openLine]
    split <;> simp
  refine ⟨nodup_of_filters (f := fun x => wid x.who) fun w => (hsub w).nodup (hi.once w), hsub, fun p => ?_⟩
  have h1 : ((hears q ls).filter fun x => x.who = p) <+ saysOf (wid p) ls := by
    refine List.Sublist.trans ?_ (hsub (wid p))
    have : ((hears q ls).filter fun x => x.who = p) = (hearsOf wid (wid p) q ls).filter fun x => x.who = p := by
      unfold hearsOf
      rw [List.filter_filter]
      refine List.filter_congr fun x _ => ?_
      by_cases hx : x.who = p <;> simp [hx]
    rw [this]
    exact List.filter_sublist
  refine ((hi.inorder (wid p)).sublist h1).imp_of_mem ?_
  intro x y hx hy hxy
  simp at hx hy
  exact hxy (by rw [hx.2, hy.2])

/-- Two players agree on the order of two lines of speakers of the same worker. -/
theorem C113_agree_partial {wid : Nat → Nat} {ls : List Chat.Label} {s : Chat.State} (h : Steps (Chat.Step wid) Chat.init ls s) {q q' : Nat} {x y : Line} (hw : wid x.who = wid y.who)
    (h1 : [x, y] <+ hears q ls) : ¬ [y, x] <+ hears q' ls := by
  intro h2
  have hi := chat_inv h
  have key : ∀ r u v, wid u.who = wid x.who → wid v.who = wid x.who → [u, v] <+ hears r ls → [u, v] <+ saysOf (wid x.who) ls := by
    intro r u v hu hv huv
    refine List.Sublist.trans ?_ ((C113_order_partial h r).2.1 (wid x.who))
    have := huv.filter (fun z => decide (wid z.who = wid x.who))
    simpa [hu, hv] using this
  have k1 := key q x y rfl hw.symm h1
  have k2 := key q' y x hw.symm rfl h2
  have hn := hi.once (wid x.who)
  revert k1 k2 hn
  generalize saysOf (wid x.who) ls = l
  clear key h1 h2 hi
  intro k1 k2 hn
  induction l with
  | nil => simp at k1
  | cons z l ih =>
    rw [List.nodup_cons] at hn
    cases k1 with
    | cons _ k1 =>
      cases k2 with
      | cons _ k2 => exact ih k1 k2 hn.2
      | cons_cons _ k2 => exact hn.1 (k1.subset (by simp))
    | cons_cons _ k1 =>
      cases k2 with
      | cons _ k2 => exact hn.1 (k2.subset (by simp))
      | cons_cons _ k2 => exact hn.1 (k1.subset (by simp))

/-- Player `q` is there and stays. -/
def StaysOnline (q : Nat) (s : Chat.State) : Prop := q ∈ s.online ∧ s.closed q = false

theorem stays_of {wid : Nat → Nat} {ls : List Chat.Label} {s : Chat.State} (h : Steps (Chat.Step wid) Chat.init ls s) (q : Nat) (h1 : .join q ∈ ls) (h2 : .close q ∉ ls) (h3 : .quit q ∉ ls) : StaysOnline q s := by
  have := h.invariant_trace (P := fun ls s => ((s.closed q = true → .close q ∈ ls) ∧ (.join q ∈ ls → q ∈ s.online ∨ .quit q ∈ ls))) ?_ (by simp [Chat.init])
  · refine ⟨(this.2 h1).resolve_right h3, ?_⟩
    cases hc : s.closed q with
    | false => rfl
    | true => exact absurd (this.1 hc) h2
  · intro ls s l t ⟨i1, i2⟩ hs
    have he : ∀ q', q ≠ q' → q ∈ s.online → q ∈ s.online.erase q' := fun q' hne hm => (List.mem_erase_of_ne hne).2 hm
    cases hs <;> simp only [List.mem_append, List.mem_singleton, Chat.upd] <;> grind

/-- The way of a line once it has been taken, as far as a player who stays is concerned. -/
structure WayInv (q w : Nat) (x : Line) (b : List Chat.Label) (s : Chat.State) : Prop where
  stays : StaysOnline q s
  old : x.n < s.said x.who
  other : ∀ v, x ∈ openLine (s.job v) → v = w
  way : s.job w = .begun x ∨ s.job w = .found x ∨ (∃ r, s.job w = .telling x r ∧ (q ∈ r ∨ .tell w x q ∈ b)) ∨
    (x ∉ openLine (s.job w) ∧ (.tell w x q ∈ b ∨ .nobody w x ∈ b))

theorem way_step {wid : Nat → Nat} {q w : Nat} {x : Line} {b : List Chat.Label} {s t : Chat.State} {l : Chat.Label} (hi : WayInv q w x b s) (hs : Chat.Step wid s l t) (h1 : l ≠ .close q) (h2 : l ≠ .quit q) :
    WayInv q w x (b ++ [l]) t := by
  obtain ⟨⟨s1, s2⟩, old, other, way⟩ := hi
  have he : ∀ q', q ≠ q' → q ∈ s.online.erase q' := fun q' hne => (List.mem_erase_of_ne hne).2 s1
  have hp : ∀ b : List Nat, b.Perm s.online → q ∈ b := fun b hb => hb.mem_iff.2 s1
  have hne : ∀ p, x ≠ ⟨p, s.said p⟩ := by intro p e; rw [e] at old; simp at old
  cases hs with
  | join q' h => exact ⟨⟨by simp [s1], s2⟩, old, other, by simpa using way⟩
  | close q' h => exact ⟨⟨s1, by simp only [Chat.upd]; grind⟩, old, other, by simpa using way⟩
  | quit q' h => exact ⟨⟨he q' (by grind), s2⟩, old, other, by simpa using way⟩
  | say p hc h =>
    refine ⟨⟨s1, s2⟩, ?_, ?_, ?_⟩ <;> simp only [Chat.upd]
    · grind
    · have := hne p; intro v hv; split at hv
      · simp [openLine, this] at hv
      · exact other v hv
    · have := hne p
      by_cases hw : w = wid p
      · subst hw; rw [h] at way; simp [openLine] at way; simp [openLine, this, way]
      · simpa [hw] using way
  | find v y h ho =>
    refine ⟨⟨s1, s2⟩, old, ?_, ?_⟩ <;> simp only [Chat.upd]
    · intro u hu; have := other u; grind [openLine]
    · by_cases hw : w = v
      · subst hw; rw [h] at way; simp [openLine] at way ⊢; grind
      · simpa [hw] using way
  | nobody v y h ho =>
    refine ⟨⟨s1, s2⟩, old, ?_, ?_⟩ <;> simp only [Chat.upd]
    · intro u hu; have := other u; grind [openLine]
    · by_cases hw : w = v
      · subst hw; rw [h] at way; simp [openLine] at way ⊢; grind
      · simpa [hw, Ne.symm hw] using way
  | snap v y r h hb =>
    refine ⟨⟨s1, s2⟩, old, ?_, ?_⟩ <;> simp only [Chat.upd]
    · intro u hu; have := other u; grind [openLine]
    · by_cases hw : w = v
      · subst hw; rw [h] at way; have := hp r hb; simp [openLine] at way ⊢; grind
      · simpa [hw] using way
  | tell v y q' r h ho =>
    refine ⟨⟨s1, s2⟩, old, ?_, ?_⟩ <;> simp only [Chat.upd]
    · intro u hu; have := other u; grind [openLine]
    · by_cases hw : w = v
      · subst hw; rw [h] at way; simp [openLine] at way ⊢; grind
      · simp [hw] at way ⊢; grind
  | miss v y q' r h ho =>
    refine ⟨⟨s1, s2⟩, old, ?_, ?_⟩ <;> simp only [Chat.upd]
    · intro u hu; have := other u; grind [openLine]
    · by_cases hw : w = v
      · subst hw; rw [h] at way; simp [openLine] at way ⊢; grind
      · simp [hw] at way ⊢; grind
  | done v y h =>
    refine ⟨⟨s1, s2⟩, old, ?_, ?_⟩ <;> simp only [Chat.upd]
    · intro u hu; have := other u; grind [openLine]
    · by_cases hw : w = v
      · subst hw; rw [h] at way; simp [openLine] at way ⊢; grind
      · simp [hw] at way ⊢; grind

theorem mem_hears {q : Nat} {x : Line} {ls : List Chat.Label} : x ∈ hears q ls ↔ ∃ w, .tell w x q ∈ ls := by
  simp only [hears, List.mem_filterMap]
  constructor
  · rintro ⟨l, hl, h⟩
    cases l <;> simp at h
    obtain ⟨rfl, rfl⟩ := h
    exact ⟨_, hl⟩
  · rintro ⟨w, hw⟩
    exact ⟨_, hw, by simp⟩

theorem way_start {wid : Nat → Nat} {a : List Chat.Label} {s t : Chat.State} {w q : Nat} {x : Line} (h : Steps (Chat.Step wid) Chat.init a s) (hs : Chat.Step wid s (.say w x) t)
    (hq : StaysOnline q s) : WayInv q w x [] t := by
  have hi := chat_inv h
  cases hs with
  | say p hc hj =>
    refine ⟨hq, by simp [Chat.upd], ?_, .inl (by simp [Chat.upd])⟩
    intro v hv
    simp only [Chat.upd] at hv
    split at hv
    · assumption
    · obtain ⟨a', h1, _⟩ := hi.told v 0
      have := (hi.taken v ⟨p, s.said p⟩ (by rw [h1]; simp [hv])).2
      simp at this

/-- **C113 (everyone).** Whatever the interleaving: once a line has been passed on, every player who was online when the worker took it, and whose connection has neither been closed nor left the table, has heard it. -/
theorem C113_everyone_partial {wid : Nat → Nat} {a b : List Chat.Label} {s : Chat.State} {w q : Nat} {x : Line} (h : Steps (Chat.Step wid) Chat.init (a ++ .say w x :: (b ++ [.done w x])) s)
    (h1 : .join q ∈ a) (h2 : .close q ∉ a ++ b) (h3 : .quit q ∉ a ++ b) : x ∈ hears q (a ++ .say w x :: (b ++ [.done w x])) := by
  obtain ⟨s1, hs1, hs2⟩ := h.split
  have hq := stays_of hs1 q h1 (fun hm => h2 (by simp [hm])) (fun hm => h3 (by simp [hm]))
  cases hs2 with
  | cons hsay hrest =>
    have hw := way_start hs1 hsay hq
    obtain ⟨u, hb, hd⟩ := hrest.unsnoc
    have hu := hb.invariant_trace (P := fun ls s => (∀ l ∈ ls, l ≠ .close q ∧ l ≠ .quit q) → WayInv q w x ls s) (by
      intro ls s l t ih hs hl
      exact way_step (ih fun l' hl' => hl l' (by simp [hl'])) hs (hl l (by simp)).1 (hl l (by simp)).2) (fun _ => hw)
      (fun l hl => ⟨fun e => h2 (by simp [← e, hl]), fun e => h3 (by simp [← e, hl])⟩)
    cases hd with
    | done _ _ hj =>
      have := hu.way
      rw [hj] at this
      simp [openLine] at this
      exact mem_hears.2 ⟨w, by simp [this]⟩

/-- A worker goes on with the line it has taken. -/
def chatActs (w : Nat) : Chat.Label → Prop
  | .find v _ => v = w
  | .nobody v _ => v = w
  | .snap v _ _ => v = w
  | .tell v _ _ => v = w
  | .miss v _ _ => v = w
  | .done v _ => v = w
  | _ => False

theorem begun_step {wid : Nat → Nat} {s t : Chat.State} {l : Chat.Label} {w : Nat} {x : Line} (hs : Chat.Step wid s l t) (h : s.job w = .begun x) (ho : x.who ∈ s.online) :
    (¬ chatActs w l ∧ t.job w = .begun x) ∨ t.job w = .found x := by
  cases hs <;> simp only [Chat.upd, chatActs] <;> grind

theorem found_step {wid : Nat → Nat} {s t : Chat.State} {l : Chat.Label} {w : Nat} {x : Line} (hs : Chat.Step wid s l t) (h : s.job w = .found x) :
    (¬ chatActs w l ∧ t.job w = .found x) ∨ ∃ b, t.job w = .telling x b := by
  cases hs <;> simp only [Chat.upd, chatActs]
  case snap v y b h1 h2 =>
    by_cases hv : w = v
    · subst hv; rw [h] at h1; cases h1; exact .inr ⟨b, by simp⟩
    · exact .inl ⟨fun e => hv e.symm, by simp [hv, h]⟩
  all_goals left; grind

theorem telling_step {wid : Nat → Nat} {s t : Chat.State} {l : Chat.Label} {w q : Nat} {b : List Nat} {x : Line} (hs : Chat.Step wid s l t) (h : s.job w = .telling x (q :: b)) :
    (¬ chatActs w l ∧ t.job w = .telling x (q :: b)) ∨ t.job w = .telling x b := by
  cases hs <;> simp only [Chat.upd, chatActs] <;> grind

/-- **C113 (in the end).** In every execution in which workers get to run: a line that has been taken reaches every player who is online by then and stays, unless the speaker leaves the table. -/
theorem C113_fair_partial {wid : Nat → Nat} (e : Exec (Chat.Step wid)) (h0 : e.run 0 = Chat.init) (w q n : Nat) (x : Line) (hf : e.WeakFair (chatActs w)) (hn : e.act n = some (.say w x))
    (hq : .join q ∈ e.trace n) (hstay : ∀ m, e.act m ≠ some (.close q) ∧ e.act m ≠ some (.quit q)) (hwho : ∀ m, e.act m ≠ some (.quit x.who)) : ∃ k, x ∈ hears q (e.trace k) := by
  have hsteps : ∀ m, Steps (Chat.Step wid) Chat.init (e.trace m) (e.run m) := fun m => h0 ▸ e.steps m
  have hq' := stays_of (hsteps n) q hq (fun hm => by obtain ⟨i, _, hi⟩ := e.mem_trace hm; exact (hstay i).1 hi) (fun hm => by obtain ⟨i, _, hi⟩ := e.mem_trace hm; exact (hstay i).2 hi)
  have hnx := e.next n
  rw [hn] at hnx
  have hway := way_start (hsteps n) hnx hq'
  have hw1 : x.who ∈ (e.run n).online ∧ (e.run (n + 1)).job w = .begun x := by
    have hcame := (hsteps n).invariant_trace (P := fun ls s => ∀ p, s.came p = true → p ∈ s.online ∨ .quit p ∈ ls) (by
      intro ls s l t ih hs p hp
      have he : ∀ q', p ≠ q' → p ∈ s.online → p ∈ s.online.erase q' := fun q' hne hm => (List.mem_erase_of_ne hne).2 hm
      have := ih p
      cases hs <;> simp only [List.mem_append, List.mem_singleton, Chat.upd] at * <;> grind) (by simp [Chat.init])
    generalize e.run n = s at hnx hcame
    generalize e.run (n + 1) = t at hnx
    cases hnx with
    | say p hc hj =>
      refine ⟨(hcame p hc).resolve_right fun hm => ?_, by simp [Chat.upd]⟩
      obtain ⟨i, _, hi⟩ := e.mem_trace hm
      exact hwho i hi
  -- the rest of the execution, without those who leave
  let st : Chat.State → Chat.Label → Chat.State → Prop := fun s l t => Chat.Step wid s l t ∧ l ≠ .close q ∧ l ≠ .quit q ∧ l ≠ .quit x.who
  let e' : Exec st := ⟨fun m => e.run (n + 1 + m), fun m => e.act (n + 1 + m), fun m => by
    have h1 := e.next (n + 1 + m)
    have h2 := hstay (n + 1 + m)
    have h3 := hwho (n + 1 + m)
    cases ha : e.act (n + 1 + m) with
    | none => rw [ha] at h1; exact h1
    | some l =>
      rw [ha] at h1 h2 h3
      exact ⟨h1, fun hl => h2.1 (by rw [hl]), fun hl => h2.2 (by rw [hl]), fun hl => h3 (by rw [hl])⟩⟩
  have hen : ∀ s, Enabled (Chat.Step wid) (chatActs w) s → Enabled st (chatActs w) s := by
    rintro s ⟨l, t, hA, hs⟩
    refine ⟨l, t, hA, hs, ?_, ?_, ?_⟩ <;> (intro hl; rw [hl] at hA; exact hA)
  have hf' : e'.WeakFair (chatActs w) := by
    intro m hm
    obtain ⟨k, l, hk, ha, hA⟩ := hf (n + 1 + m) (fun j hj => by
      obtain ⟨l, t, hA, hs⟩ := hm (j - (n + 1)) (by omega)
      refine ⟨l, t, hA, ?_⟩
      have := hs.1
      rwa [show e'.run (j - (n + 1)) = e.run j from by show e.run (n + 1 + (j - (n + 1))) = _; rw [show n + 1 + (j - (n + 1)) = j by omega]] at this)
    exact ⟨k - (n + 1), l, by omega, by show e.act (n + 1 + (k - (n + 1))) = _; rw [show n + 1 + (k - (n + 1)) = k by omega]; exact ha, hA⟩
  suffices H : ∃ m, .tell w x q ∈ e'.trace m by
    obtain ⟨m, hm⟩ := H
    obtain ⟨i, hi, ha⟩ := e'.mem_trace hm
    exact ⟨n + 1 + i + 1, mem_hears.2 ⟨w, by
      show _ ∈ e.trace (n + 1 + i) ++ (e.act (n + 1 + i)).toList
      rw [show e.act (n + 1 + i) = _ from ha]
      simp⟩⟩
  let P : Chat.State × List Chat.Label → Prop := fun p => WayInv q w x p.2 p.1 ∧ x.who ∈ p.1.online
  have hP : ∀ p l r, P p → recording st p l r → P r := by
    rintro p l r ⟨h1, h2⟩ ⟨⟨hs, ha, hb, hc⟩, hr⟩
    refine ⟨hr ▸ way_step h1 hs ha hb, ?_⟩
    have he : ∀ q', x.who ≠ q' → x.who ∈ p.1.online.erase q' := fun q' hne => (List.mem_erase_of_ne hne).2 h2
    generalize r.1 = t at hs
    cases hs <;> (try exact h2) <;> grind
  obtain ⟨k1, _, hk1⟩ := e'.recorded.leads_weak hf'.recorded (P := fun p => P p ∧ p.1.job w = .begun x) (Q := fun p => P p ∧ p.1.job w = .found x)
    (fun p l r ⟨h1, h2⟩ hs => (begun_step hs.1.1 h2 h1.2).imp (fun h => ⟨hP p l r h1 hs, h.2⟩) fun h => ⟨hP p l r h1 hs, h⟩)
    (fun p l r ⟨h1, h2⟩ hs hA => (begun_step hs.1.1 h2 h1.2).elim (fun h => absurd hA h.1) fun h => ⟨hP p l r h1 hs, h⟩)
    (fun p ⟨h1, h2⟩ => enabled_recorded.2 (hen _ ⟨.find w x, _, rfl, .find _ w x h2 h1.2⟩)) (n := 0) ⟨⟨hway, by
      show x.who ∈ (e.run (n + 1)).online
      have := hw1.1
      generalize e.run n = s at hnx this
      generalize e.run (n + 1) = t at hnx
      cases hnx
      exact this⟩, hw1.2⟩
  obtain ⟨k2, _, hk2, b, hb⟩ := e'.recorded.leads_weak hf'.recorded (P := fun p => P p ∧ p.1.job w = .found x) (Q := fun p => P p ∧ ∃ b, p.1.job w = .telling x b)
    (fun p l r ⟨h1, h2⟩ hs => (found_step hs.1.1 h2).imp (fun h => ⟨hP p l r h1 hs, h.2⟩) fun h => ⟨hP p l r h1 hs, h⟩)
    (fun p l r ⟨h1, h2⟩ hs hA => (found_step hs.1.1 h2).elim (fun h => absurd hA h.1) fun h => ⟨hP p l r h1 hs, h⟩)
    (fun p ⟨h1, h2⟩ => enabled_recorded.2 (hen _ ⟨.snap w x _, _, rfl, .snap _ w x _ h2 (.refl _)⟩)) (n := k1) hk1
  have last : ∀ (b : List Nat) m, P (e'.recorded.run m) → (e'.recorded.run m).1.job w = .telling x b → ∃ m, .tell w x q ∈ e'.trace m := by
    intro b
    induction b with
    | nil =>
      intro m h1 h2
      have hway := h1.1.way
      rw [h2] at hway
      simp [openLine] at hway
      exact ⟨m, hway⟩
    | cons q' b ih =>
      intro m h1 h2
      obtain ⟨k, _, h3, h4⟩ := e'.recorded.leads_weak hf'.recorded (P := fun p => P p ∧ p.1.job w = .telling x (q' :: b)) (Q := fun p => P p ∧ p.1.job w = .telling x b)
        (fun p l r ⟨h1, h2⟩ hs => (telling_step hs.1.1 h2).imp (fun h => ⟨hP p l r h1 hs, h.2⟩) fun h => ⟨hP p l r h1 hs, h⟩)
        (fun p l r ⟨h1, h2⟩ hs hA => (telling_step hs.1.1 h2).elim (fun h => absurd hA h.1) fun h => ⟨hP p l r h1 hs, h⟩)
        (fun p ⟨h1, h2⟩ => enabled_recorded.2 (hen _ (by
          cases hc : p.1.closed q' with
          | false => exact ⟨.tell w x q', _, rfl, .tell _ w x q' b h2 hc⟩
          | true => exact ⟨.miss w x q', _, rfl, .miss _ w x q' b h2 hc⟩))) (n := m) ⟨h1, h2⟩
      exact ih k h3 h4
  exact last b k2 hk2 hb

/-- Two players on different workers say something; each hears its own line first. -/
def crossTalk (wid : Nat → Nat) : List Chat.Label := [.join 1, .join 2, .say (wid 1) ⟨1, 0⟩, .find (wid 1) ⟨1, 0⟩, .snap (wid 1) ⟨1, 0⟩ [1, 2], .say (wid 2) ⟨2, 0⟩, .find (wid 2) ⟨2, 0⟩, .snap (wid 2) ⟨2, 0⟩ [2, 1],
  .tell (wid 1) ⟨1, 0⟩ 1, .tell (wid 2) ⟨2, 0⟩ 2, .tell (wid 2) ⟨2, 0⟩ 1, .done (wid 2) ⟨2, 0⟩, .tell (wid 1) ⟨1, 0⟩ 2, .done (wid 1) ⟨1, 0⟩]

theorem crossTalk_steps (wid : Nat → Nat) (hw : wid 1 ≠ wid 2) : ∃ s, Steps (Chat.Step wid) Chat.init (crossTalk wid) s ∧ ∀ w, s.job w = .idle := by
  have hw' := Ne.symm hw
  refine ⟨_, .cons (.join _ 1 rfl) <| .cons (.join _ 2 rfl) <| .cons (.say _ 1 rfl rfl) <| .cons (.find _ _ _ (by simp [Chat.upd, Chat.init]) (by simp [Chat.init])) <|
    .cons (.snap _ _ _ [1, 2] (by simp [Chat.upd]) (by simp [Chat.init])) <| .cons (.say _ 2 rfl (by simp [Chat.upd, hw', Chat.init])) <|
    .cons (.find _ _ _ (by simp [Chat.upd, Chat.init]) (by simp [Chat.init])) <| .cons (.snap _ _ _ [2, 1] (by simp [Chat.upd]) (by simpa [Chat.init] using List.Perm.swap 1 2 [])) <|
    .cons (.tell _ _ _ 1 [2] (by simp [Chat.upd, hw]) rfl) <| .cons (.tell _ _ _ 2 [1] (by simp [Chat.upd, hw']) rfl) <| .cons (.tell _ _ _ 1 [] (by simp [Chat.upd]) rfl) <|
    .cons (.done _ _ _ (by simp [Chat.upd])) <| .cons (.tell _ _ _ 2 [] (by simp [Chat.upd, hw]) rfl) <| .cons (.done _ _ _ (by simp [Chat.upd])) (.nil _), ?_⟩
  intro w
  simp only [Chat.upd, Chat.init]
  grind

/-- **C113 refuted (order).** Whenever the connections of two players have different workers: both hear both lines, one in the one order, the other in the other. -/
theorem C113_order_refuted (wid : Nat → Nat) (hw : wid 1 ≠ wid 2) : ∃ ls s, Steps (Chat.Step wid) Chat.init ls s ∧ (∀ w, s.job w = .idle) ∧ (∀ q, .close q ∉ ls ∧ .quit q ∉ ls) ∧
    hears 1 ls = [⟨1, 0⟩, ⟨2, 0⟩] ∧ hears 2 ls = [⟨2, 0⟩, ⟨1, 0⟩] := by
  obtain ⟨s, h1, h2⟩ := crossTalk_steps wid hw
  exact ⟨_, s, h1, h2, by simp [crossTalk], by simp [crossTalk, hears], by simp [crossTalk, hears]⟩

/-- A line that is past stays past. -/
theorem past_step {wid : Nat → Nat} {s t : Chat.State} {l : Chat.Label} {x : Line} (hs : Chat.Step wid s l t) (h : (∀ v, x ∉ openLine (s.job v)) ∧ x.n < s.said x.who) :
    ((∀ v, x ∉ openLine (t.job v)) ∧ x.n < t.said x.who) ∧ ∀ w q, l ≠ .tell w x q := by
  obtain ⟨h1, h2⟩ := h
  have hne : ∀ p, x ≠ ⟨p, s.said p⟩ := by intro p e; rw [e] at h2; simp at h2
  cases hs <;> simp only [Chat.upd] <;> refine ⟨⟨fun v => ?_, ?_⟩, fun w q => ?_⟩ <;> (try have := h1 v) <;> (try have := h1 w) <;> grind [openLine]

/-- **C113 refuted (lost).** A line that has been taken is lost if the speaker leaves the table before it is looked up: the handler dereferences nil (the worker survives), and nobody hears the line, now or later. -/
theorem C113_lost_refuted (wid : Nat → Nat) : ∃ ls s, Steps (Chat.Step wid) Chat.init ls s ∧ .say (wid 1) ⟨1, 0⟩ ∈ ls ∧ .nobody (wid 1) ⟨1, 0⟩ ∈ ls ∧ StaysOnline 2 s ∧
    ∀ ls' s', Steps (Chat.Step wid) s ls' s' → ∀ q, ⟨1, 0⟩ ∉ hears q (ls ++ ls') := by
  refine ⟨[.join 1, .join 2, .say (wid 1) ⟨1, 0⟩, .quit 1, .nobody (wid 1) ⟨1, 0⟩], _, .cons (.join _ 1 rfl) <| .cons (.join _ 2 rfl) <| .cons (.say _ 1 rfl rfl) <| .cons (.quit _ 1 (by simp [Chat.init])) <|
    .cons (.nobody _ _ _ (by simp [Chat.upd, Chat.init]) (by simp [Chat.init])) (.nil _), by simp, by simp, ⟨by simp [Chat.init], rfl⟩, ?_⟩
  intro ls' s' h q hm
  have := h.invariant_trace (P := fun ls s => ((∀ v, ⟨1, 0⟩ ∉ openLine (s.job v)) ∧ 0 < s.said 1) ∧ ∀ w q, .tell w ⟨1, 0⟩ q ∉ ls) (by
    intro ls s l t ⟨h1, h2⟩ hs
    obtain ⟨h3, h4⟩ := past_step hs h1
    refine ⟨h3, fun w q hm => ?_⟩
    rw [List.mem_append, List.mem_singleton] at hm
    exact hm.elim (h2 w q) fun e => h4 w q e.symm) ⟨⟨fun v => by simp only [Chat.upd, Chat.init]; split <;> simp [openLine], by simp [Chat.upd]⟩, by simp⟩
  obtain ⟨w, hw⟩ := mem_hears.1 hm
  simp at hw
  exact this.2 w q hw

/-- Players 1 and 2 talk across each other: the hypotheses of `C113_everyone_partial` and `C113_fair_partial` hold. -/
example (wid : Nat → Nat) (hw : wid 1 ≠ wid 2) : ∃ e : Exec (Chat.Step wid), e.run 0 = Chat.init ∧ (∀ w, e.WeakFair (chatActs w)) ∧ e.act 2 = some (.say (wid 1) ⟨1, 0⟩) ∧ .join 2 ∈ e.trace 2 ∧
    (∀ m q, e.act m ≠ some (.close q) ∧ e.act m ≠ some (.quit q)) := by
  obtain ⟨s, h1, h2⟩ := crossTalk_steps wid hw
  obtain ⟨e, e1, e2, e3, e4⟩ := Exec.ofSteps h1
  refine ⟨e, e1, fun w => Exec.weakFair_of_end e4 ?_, by rw [e2]; rfl, by rw [e3]; simp [crossTalk], fun m q => ?_⟩
  · rintro ⟨l, t, hA, hs⟩
    cases hs <;> simp_all [chatActs]
  · rw [e2]
    have : ∀ l ∈ crossTalk wid, l ≠ .close q ∧ l ≠ .quit q := by simp [crossTalk]
    cases hm : (crossTalk wid)[m]? with
    | none => simp
    | some l => have := this l (List.mem_of_getElem? hm); simp [this]

example (wid : Nat → Nat) (hw : wid 1 ≠ wid 2) : ∃ a b s, Steps (Chat.Step wid) Chat.init (a ++ .say (wid 1) ⟨1, 0⟩ :: (b ++ [.done (wid 1) ⟨1, 0⟩])) s ∧ .join 2 ∈ a ∧ .close 2 ∉ a ++ b ∧ .quit 2 ∉ a ++ b := by
  obtain ⟨s, h1, _⟩ := crossTalk_steps wid hw
  exact ⟨(crossTalk wid).take 2, ((crossTalk wid).drop 3).take 10, s, h1, by simp [crossTalk], by simp [crossTalk], by simp [crossTalk]⟩

/-- The hypotheses of `C113_agree_partial`: two players with the same worker, one after the other. -/
example : ∃ ls s, Steps (Chat.Step fun _ => 0) Chat.init ls s ∧ [⟨1, 0⟩, ⟨2, 0⟩] <+ hears 1 ls ∧ [⟨1, 0⟩, ⟨2, 0⟩] <+ hears 2 ls := by
  refine ⟨[.join 1, .join 2, .say 0 ⟨1, 0⟩, .find 0 ⟨1, 0⟩, .snap 0 ⟨1, 0⟩ [1, 2], .tell 0 ⟨1, 0⟩ 1, .tell 0 ⟨1, 0⟩ 2, .done 0 ⟨1, 0⟩, .say 0 ⟨2, 0⟩, .find 0 ⟨2, 0⟩, .snap 0 ⟨2, 0⟩ [2, 1], .tell 0 ⟨2, 0⟩ 2, .tell 0 ⟨2, 0⟩ 1, .done 0 ⟨2, 0⟩], _,
    .cons (.join _ 1 rfl) <| .cons (.join _ 2 rfl) <| .cons (.say _ 1 rfl rfl) <| .cons (.find _ _ _ rfl (by simp [Chat.init])) <| .cons (.snap _ _ _ [1, 2] rfl (by simp [Chat.init])) <|
    .cons (.tell _ _ _ 1 [2] rfl rfl) <| .cons (.tell _ _ _ 2 [] rfl rfl) <| .cons (.done _ _ _ rfl) <| .cons (.say _ 2 rfl rfl) <| .cons (.find _ _ _ rfl (by simp [Chat.init])) <|
    .cons (.snap _ _ _ [2, 1] rfl (by simpa [Chat.init] using List.Perm.swap 1 2 [])) <| .cons (.tell _ _ _ 2 [1] rfl rfl) <| .cons (.tell _ _ _ 1 [] rfl rfl) <| .cons (.done _ _ _ rfl) (.nil _), by simp [hears], by simp [hears]⟩

/-- Players in the table, in the lists of workers and on closed connections have come. -/
structure ComeInv (ls : List Chat.Label) (s : Chat.State) : Prop where
  came : ∀ q, s.came q = true ↔ .join q ∈ ls
  online : ∀ q ∈ s.online, .join q ∈ ls
  closed : ∀ q, s.closed q = true ↔ .close q ∈ ls
  shut : ∀ q, .close q ∈ ls → .join q ∈ ls
  rest : ∀ w x b, s.job w = .telling x b → ∀ q ∈ b, .join q ∈ ls

theorem come_inv {wid : Nat → Nat} {ls : List Chat.Label} {s : Chat.State} (h : Steps (Chat.Step wid) Chat.init ls s) : ComeInv ls s := by
  refine h.invariant_trace (P := ComeInv) ?_ ⟨by simp [Chat.init], by simp [Chat.init], by simp [Chat.init], by simp, by simp [Chat.init]⟩
  intro ls s l t ⟨h1, h2, h3, h4, h5⟩ hs
  cases hs with
  | join q hq => refine ⟨?_, ?_, ?_, ?_, ?_⟩ <;> simp [Chat.upd] <;> grind
  | close q hq => refine ⟨?_, ?_, ?_, ?_, ?_⟩ <;> simp [Chat.upd] <;> grind
  | quit q hq => exact ⟨by simpa using h1, by simp; exact fun r hr => h2 r (List.mem_of_mem_erase hr), by simpa using h3, by simpa using h4, by simp; exact h5⟩
  | snap w x b hj hb =>
    refine ⟨by simpa using h1, by simpa using h2, by simpa using h3, by simpa using h4, ?_⟩
    intro v y b' hv q hq
    simp only [Chat.upd] at hv
    split at hv
    · injection hv with _ e; subst e; simp [h2 q (hb.subset hq)]
    · simp [h5 v y b' hv q hq]
  | tell w x q b hj ho | miss w x q b hj ho =>
    refine ⟨by simpa using h1, by simpa using h2, by simpa using h3, by simpa using h4, ?_⟩
    intro v y b' hv r hr
    simp only [Chat.upd] at hv
    split at hv
    · injection hv with _ e; subst e; simp [h5 w x _ hj r (by simp [hr])]
    · simp [h5 v y b' hv r hr]
  | say p hc hj | find w x hj ho | nobody w x hj ho | done w x hj =>
    refine ⟨by simpa using h1, by simpa using h2, by simpa using h3, by simpa using h4, ?_⟩
    intro v y b' hv r hr
    simp only [Chat.upd] at hv
    split at hv
    · exact absurd hv (by simp)
    · simp [h5 v y b' hv r hr]

/-- Lines are sent to players who have come and whose connection is open; if a player of the list misses a line, then its connection has been closed; connections of players are closed after they have come. -/
theorem C113_whom {wid : Nat → Nat} {ls : List Chat.Label} {l : Chat.Label} {s : Chat.State} (h : Steps (Chat.Step wid) Chat.init (ls ++ [l]) s) (q : Nat) :
    (∀ w x, l = .tell w x q → .join q ∈ ls ∧ .close q ∉ ls) ∧ (∀ w x, l = .miss w x q → .join q ∈ ls ∧ .close q ∈ ls) ∧ (l = .close q → .join q ∈ ls) := by
  obtain ⟨t, h1, h2⟩ := h.unsnoc
  have hi := come_inv h1
  refine ⟨?_, ?_, ?_⟩
  · rintro w x rfl
    cases h2 with
    | tell _ _ _ b hj ho => exact ⟨hi.rest w x _ hj q (by simp), fun hm => by simp [(hi.closed q).mpr hm] at ho⟩
  · rintro w x rfl
    cases h2 with
    | miss _ _ _ b hj ho => exact ⟨hi.rest w x _ hj q (by simp), (hi.closed q).mp ho⟩
  · rintro rfl
    cases h2 with
    | close _ hc => exact (hi.came q).mp hc

/-- Two players come, the second is cut off and misses the line of the first, who hears it. -/
example (wid : Nat → Nat) : ∃ s, Steps (Chat.Step wid) Chat.init ([.join 1, .join 2, .close 2, .say (wid 1) ⟨1, 0⟩, .find (wid 1) ⟨1, 0⟩, .snap (wid 1) ⟨1, 0⟩ [1, 2], .tell (wid 1) ⟨1, 0⟩ 1] ++ [.miss (wid 1) ⟨1, 0⟩ 2]) s :=
  ⟨_, .cons (.join _ 1 rfl) <| .cons (.join _ 2 rfl) <| .cons (.close _ 2 rfl) <| .cons (.say _ 1 rfl rfl) <| .cons (.find _ _ _ (by simp [Chat.upd, Chat.init]) (by simp [Chat.init])) <|
    .cons (.snap _ _ _ [1, 2] (by simp [Chat.upd]) (by simp [Chat.init])) <| .cons (.tell _ _ _ 1 [2] (by simp [Chat.upd]) (by simp [Chat.upd, Chat.init])) <|
      .cons (.miss _ _ _ 2 [] (by simp [Chat.upd]) (by simp [Chat.upd])) (.nil _)⟩

end Zinx.Props
