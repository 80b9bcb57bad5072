import Verif.Model.MapLeak
import Verif.Props.MapLock

/-! # C152: the map can be used after a callback has panicked -/

set_option linter.unusedSimpArgs false

namespace Zinx.Props

open Zinx Zinx.MapLock

/-- No more `RLock` than `RUnlock` of shard `i` from any point on. -/
def RBal (i : Nat) : List Instr → Prop
  | [] => True
  | x :: c => (x :: c).count (.rlock i) ≤ (x :: c).count (.runlock i) ∧ RBal i c

theorem RBal.le {i : Nat} {c : List Instr} (h : RBal i c) : c.count (.rlock i) ≤ c.count (.runlock i) := by
  cases c with
  | nil => simp
  | cons x c => exact h.1

theorem whole_bal {i : Nat} {c : List Instr} (h : Whole c) : c.count (.rlock i) = c.count (.runlock i) ∧ ∀ d, RBal i d → RBal i (c ++ d) := by
  induction h with
  | nil => exact ⟨rfl, fun d h => h⟩
  | work => exact ⟨by simp, fun d h => ⟨by simpa using h.le, h⟩⟩
  | read k c _ ih =>
    have e : ∀ d : List Instr, (.rlock k :: (c ++ [.runlock k])) ++ d = .rlock k :: (c ++ (.runlock k :: d)) := by simp
    refine ⟨by have := ih.1; simp [List.count_cons]; omega, fun d h => ?_⟩
    rw [e]
    have hd : RBal i (.runlock k :: d) := ⟨by have := h.le; simp [List.count_cons]; omega, h⟩
    refine ⟨?_, ih.2 _ hd⟩
    have := ih.1
    have := h.le
    simp [List.count_cons]
    omega
  | write k c _ ih =>
    have e : ∀ d : List Instr, (.lock k :: (c ++ [.unlock k])) ++ d = .lock k :: (c ++ (.unlock k :: d)) := by simp
    refine ⟨by have := ih.1; simp [List.count_cons]; omega, fun d h => ?_⟩
    rw [e]
    have hd : RBal i (.unlock k :: d) := ⟨by have := h.le; simp [List.count_cons]; omega, h⟩
    refine ⟨?_, ih.2 _ hd⟩
    have := ih.1
    have := h.le
    simp [List.count_cons]
    omega
  | append c d _ _ ihc ihd => exact ⟨by rw [List.count_append, List.count_append, ihc.1, ihd.1], fun e h => by rw [List.append_assoc]; exact ihc.2 _ (ihd.2 _ h)⟩

/-- Goroutines that wait in `RLock` do so. -/
structure Waits (g i : Nat) (s : MapLock.State) : Prop where
  wait : g ∈ s.rwait i → s.stat g = .waitR ∧ (s.code g).head? = some (.rlock i)
  one : (s.rwait i).count g ≤ 1
  rest : s.code g = [] → s.stat g = .ready

theorem waits_step {n g i : Nat} {s t : MapLock.State} {l : MapLeak.Label} (hw : Waits g i s) (hs : MapLeak.Step n s l t) : Waits g i t := by
  obtain ⟨h1, h2, h3⟩ := hw
  have h4 : s.stat g = .ready → (s.rwait i).count g = 0 := fun h => List.count_eq_zero.mpr fun hm => by rw [(h1 hm).1] at h; cases h
  cases hs with
  | panic g' c h hc => constructor <;> grind [MapLock.upd]
  | base hs => cases hs <;> constructor <;> grind [MapLock.upd]

/-- Goroutine `g` has left shard `i` locked for reading: it is inside more often than it will leave. -/
structure RLeak (g i : Nat) (s : MapLock.State) : Prop extends Waits g i s where
  more : (s.code g).count (.runlock i) + (if s.stat g = .waitR ∧ (s.code g).head? = some (.rlock i) ∧ g ∉ s.rwait i then 1 else 0) + 1 ≤ (s.readers i).count g + (s.code g).count (.rlock i)
  bal : RBal i (s.code g)

theorem leak_step {n g i : Nat} {s t : MapLock.State} {l : MapLeak.Label} (hw : RLeak g i s) (hs : MapLeak.Step n s l t) : RLeak g i t := by
  have hw' := waits_step hw.toWaits hs
  refine { hw' with more := ?_, bal := ?_ }
  all_goals
    obtain ⟨⟨h1, h2, h3⟩, h5, h6⟩ := hw
    have h4 : s.stat g = .ready → g ∉ s.rwait i := fun h hm => by rw [(h1 hm).1] at h; cases h
    have h7 := h6.le
    have h8 : 0 < (s.readers i).count g := by omega
    clear hw'
  · cases hs with
    | panic g' c h hc =>
      dsimp only [MapLock.upd]
      by_cases e : g = g'
      · subst e; simpa using h8
      · simp only [e, if_false]; exact h5
    | base hs =>
      cases hs with
      | call g' op hc ho =>
        dsimp only [MapLock.upd]
        by_cases e : g = g'
        · subst e
          have := (whole_bal (i := i) (whole_op n op ho)).1
          simp [h3 hc]
          omega
        · simp only [e, if_false]; exact h5
      | work g' c h hc =>
        dsimp only [MapLock.upd]
        by_cases e : g = g'
        · subst e; simp [h, hc, List.count_cons] at h5 ⊢; omega
        · simp only [e, if_false]; exact h5
      | rlock g' k c h hc hn =>
        dsimp only [MapLock.upd]
        by_cases e : g = g'
        · subst e
          by_cases ek : i = k
          · subst ek; simp [h, hc, List.count_cons] at h5 ⊢; omega
          · simp [h, hc, List.count_cons, ek, Ne.symm ek] at h5 ⊢; omega
        · simp only [e, if_false]
          by_cases ek : i = k
          · subst ek; simp [List.count_cons, Ne.symm e] at h5 ⊢; omega
          · simp only [ek, if_false]; exact h5
      | rlockWait g' k c h hc hn =>
        dsimp only [MapLock.upd]
        by_cases e : g = g'
        · subst e
          by_cases ek : i = k
          · subst ek; simp [h, hc, List.count_cons] at h5 ⊢; omega
          · simp [h, hc, List.count_cons, ek, Ne.symm ek] at h5 ⊢; omega
        · simp only [e, if_false]
          by_cases ek : i = k
          · subst ek; simpa [e] using h5
          · simp only [ek, if_false]; exact h5
      | resume g' k c h hc hn =>
        dsimp only [MapLock.upd]
        by_cases e : g = g'
        · subst e
          by_cases ek : i = k
          · subst ek; simp [h, hc, hn, List.count_cons] at h5 ⊢; omega
          · simp [h, hc, List.count_cons, ek, Ne.symm ek] at h5 ⊢; omega
        · simp only [e, if_false]; exact h5
      | runlock g' k c h hc =>
        dsimp only [MapLock.upd]
        by_cases e : g = g'
        · subst e
          by_cases ek : i = k
          · subst ek; simp [h, hc, List.count_cons, List.count_erase] at h5 ⊢; omega
          · simp [h, hc, List.count_cons, ek, Ne.symm ek] at h5 ⊢; omega
        · simp only [e, if_false]
          by_cases ek : i = k
          · subst ek; simpa [List.count_erase, Ne.symm e] using h5
          · simp only [ek, if_false]; exact h5
      | take g' k c h hc hn =>
        dsimp only [MapLock.upd]
        by_cases e : g = g'
        · subst e; simp [h, hc] at h5 ⊢; omega
        · simp only [e, if_false]; exact h5
      | locked g' k c h hc hn =>
        dsimp only [MapLock.upd]
        by_cases e : g = g'
        · subst e; simp [h, hc, List.count_cons] at h5 ⊢; omega
        · simp only [e, if_false]; exact h5
      | unlock g' k c h hc =>
        dsimp only [MapLock.upd]
        by_cases e : g = g'
        · subst e
          by_cases ek : i = k
          · subst ek; simp [h, hc, List.count_cons] at h5 ⊢; omega
          · simp [h, hc, List.count_cons, ek] at h5 ⊢; omega
        · simp only [e, if_false]
          by_cases ek : i = k
          · subst ek
            by_cases hm : g ∈ s.rwait i
            · have := List.count_pos_iff.mpr hm
              simp [hm] at h5 ⊢
              split <;> omega
            · simp [hm] at h5 ⊢; omega
          · simp only [ek, if_false]; exact h5
  · cases hs with
    | panic g' c h hc => dsimp only [MapLock.upd]; split <;> first | trivial | exact h6
    | base hs =>
      cases hs with
      | call g' op hc ho =>
        dsimp only [MapLock.upd]
        split
        · have := (whole_bal (i := i) (whole_op n op ho)).2 [] trivial
          simpa using this
        · exact h6
      | take | rlockWait => exact h6
      | work g' c h hc | rlock g' _ c h hc | resume g' _ c h hc | runlock g' _ c h hc | locked g' _ c h hc | unlock g' _ c h hc =>
        dsimp only [MapLock.upd]
        split
        · rename_i e; subst e; rw [hc] at h6; exact h6.2
        · exact h6

theorem RLeak.ne {g i : Nat} {s : MapLock.State} (h : RLeak g i s) : s.readers i ≠ [] := by
  intro e
  have h1 := h.more
  have h2 := h.bal.le
  rw [e] at h1
  simp at h1
  omega

theorem leak_start {n g i : Nat} {ls : List MapLeak.Label} {s t : MapLock.State} (h : Steps (MapLeak.Step n) {} ls s) (hr : g ∈ s.readers i) (hp : MapLeak.Step n s (.panic g) t) : RLeak g i t := by
  have hw : Waits g i s := h.invariant (P := Waits g i) (fun _ _ _ hi hs => waits_step hi hs) ⟨by simp, by simp, by simp⟩
  refine { waits_step hw hp with more := ?_, bal := ?_ }
  all_goals cases hp with
    | panic _ c h hc => simp [MapLock.upd, RBal]; try exact hr

/-- **C152 is false of the code**: after a callback has panicked while shard `i` was locked for reading, the shard is locked for ever, and whoever calls `Set`, `Remove` or another call that writes it waits for ever. -/
theorem C152_stuck {n g i : Nat} {ls ls' : List MapLeak.Label} {s t u : MapLock.State} (h : Steps (MapLeak.Step n) {} ls s) (hr : g ∈ s.readers i) (hp : MapLeak.Step n s (.panic g) t)
    (h' : Steps (MapLeak.Step n) t ls' u) : u.readers i ≠ [] ∧ ∀ w c, t.code w = .lock i :: c → u.code w = .lock i :: c := by
  have hl : RLeak g i t := leak_start h hr hp
  have := h'.invariant (P := fun v => RLeak g i v ∧ ∀ w c, t.code w = .lock i :: c → v.code w = .lock i :: c) (fun v l v' hi hs => by
    refine ⟨leak_step hi.1 hs, fun w c hc => ?_⟩
    have hv := hi.2 w c hc
    have hne := hi.1.ne
    cases hs with
    | panic => grind [MapLock.upd]
    | base hs => cases hs <;> grind [MapLock.upd]) ⟨hl, fun _ _ h => h⟩
  exact ⟨this.1.ne, this.2⟩

/-- What the code of a goroutine does with `Lock` and `Unlock` of shard `i`, if it has (`true`) or has not the lock. -/
def WOk (i : Nat) : Bool → List Instr → Prop
  | _, [] => True
  | false, .lock j :: c => if j = i then WOk i true c else WOk i false c
  | false, .unlock j :: c => j ≠ i ∧ WOk i false c
  | true, .lock j :: c => j = i ∨ WOk i true c
  | true, .unlock j :: c => if j = i then WOk i false c else WOk i true c
  | b, .rlock _ :: c => WOk i b c
  | b, .runlock _ :: c => WOk i b c
  | b, .work :: c => WOk i b c

theorem whole_wok {i : Nat} {c : List Instr} (h : Whole c) : ∀ b d, WOk i b d → WOk i b (c ++ d) := by
  induction h with
  | nil => exact fun b d h => h
  | work => intro b d h; cases b <;> exact h
  | read k c _ ih =>
    intro b d h
    rw [show (.rlock k :: (c ++ [.runlock k])) ++ d = .rlock k :: (c ++ (.runlock k :: d)) by simp]
    have := ih b (.runlock k :: d) (by cases b <;> exact h)
    cases b <;> exact this
  | write k c _ ih =>
    intro b d h
    rw [show (.lock k :: (c ++ [.unlock k])) ++ d = .lock k :: (c ++ (.unlock k :: d)) by simp]
    cases b with
    | false =>
      unfold WOk
      split
      · rename_i e; exact ih true _ (by unfold WOk; rw [if_pos e]; exact h)
      · rename_i e; exact ih false _ (by unfold WOk; exact ⟨e, h⟩)
    | true =>
      unfold WOk
      by_cases e : k = i
      · exact .inl e
      · exact .inr (ih true _ (by unfold WOk; rw [if_neg e]; exact h))
  | append c d _ _ ihc ihd => intro b e h; rw [List.append_assoc]; exact ihc b _ (ihd b _ h)

/-- Who has a shard locked for writing, and who waits for that. -/
structure WInv (i : Nat) (s : MapLock.State) : Prop where
  code : ∀ h, WOk i (decide (s.writer i = some h ∧ ¬ (s.stat h = .waitW ∧ (s.code h).head? = some (.lock i)))) (s.code h)
  wait : ∀ h, s.stat h = .waitW → (s.code h).head? = some (.lock i) → s.writer i = some h
  rest : ∀ h, s.code h = [] → s.stat h = .ready

theorem winv_step {n i : Nat} {s t : MapLock.State} {l : MapLeak.Label} (hw : WInv i s) (hs : MapLeak.Step n s l t) : WInv i t := by
  obtain ⟨h1, h2, h3⟩ := hw
  have nil : ∀ b, WOk i b [] := fun b => by cases b <;> trivial
  cases hs with
  | panic g' c h hc =>
    refine ⟨fun g => ?_, ?_, ?_⟩
    · have := h1 g
      dsimp only [MapLock.upd]
      by_cases e : g = g'
      · simp only [e, if_true]; exact nil _
      · simpa only [e, if_false] using this
    all_goals grind [MapLock.upd]
  | base hs =>
    cases hs with
    | call g' op hc ho =>
      refine ⟨fun g => ?_, ?_, ?_⟩
      · have := h1 g
        dsimp only [MapLock.upd]
        by_cases e : g = g'
        · have := fun b => whole_wok (i := i) (whole_op n op ho) b [] (nil b)
          simp only [List.append_nil] at this
          simp only [e, if_true]
          exact this _
        · simpa only [e, if_false] using this
      all_goals grind [MapLock.upd]
    | work g' c h hc | rlock g' _ c h hc | runlock g' _ c h hc =>
      refine ⟨fun g => ?_, ?_, ?_⟩
      · have := h1 g
        dsimp only [MapLock.upd]
        by_cases e : g = g'
        · subst e
          simp only [h, hc, if_true] at this ⊢
          simp at this ⊢
          generalize decide (s.writer i = some g) = b at *
          cases b <;> exact this
        · simpa only [e, if_false] using this
      all_goals grind [MapLock.upd]
    | rlockWait g' k c h hc =>
      refine ⟨fun g => ?_, ?_, ?_⟩
      · have := h1 g
        dsimp only [MapLock.upd]
        by_cases e : g = g'
        · subst e; simpa [h, hc] using this
        · simpa only [e, if_false] using this
      all_goals grind [MapLock.upd]
    | resume g' k c h hc =>
      refine ⟨fun g => ?_, ?_, ?_⟩
      · have := h1 g
        dsimp only [MapLock.upd]
        by_cases e : g = g'
        · subst e
          simp [h, hc] at this ⊢
          generalize decide (s.writer i = some g) = b at *
          cases b <;> exact this
        · simpa only [e, if_false] using this
      all_goals grind [MapLock.upd]
    | take g' k c h hc hn =>
      refine ⟨fun g => ?_, ?_, ?_⟩
      · have := h1 g
        dsimp only [MapLock.upd]
        by_cases e : g = g'
        · subst e
          by_cases ek : i = k
          · subst ek; simpa [h, hc, hn] using this
          · simpa [h, hc, ek, Ne.symm ek] using this
        · simp only [e, if_false]
          by_cases ek : i = k
          · subst ek; simpa [hn, Ne.symm e] using this
          · simpa [ek] using this
      all_goals grind [MapLock.upd]
    | locked g' k c h hc hn =>
      refine ⟨fun g => ?_, ?_, ?_⟩
      · have := h1 g
        dsimp only [MapLock.upd]
        by_cases e : g = g'
        · subst e
          by_cases ek : k = i
          · subst ek
            have hw := h2 g h (by rw [hc]; rfl)
            simp [h, hc, hw, WOk] at this ⊢
            exact this
          · simp [h, hc, ek] at this ⊢
            generalize decide (s.writer i = some g) = b at *
            cases b <;> simpa [WOk, ek] using this
        · simpa only [e, if_false] using this
      all_goals grind [MapLock.upd]
    | unlock g' k c h hc =>
      by_cases ek : i = k
      · subst ek
        have hw : s.writer i = some g' := by
          have := h1 g'
          apply Classical.byContradiction
          intro hn
          simp [h, hc, hn, WOk] at this
        refine ⟨fun g => ?_, ?_, ?_⟩
        · have := h1 g
          dsimp only [MapLock.upd]
          by_cases e : g = g'
          · subst e; simpa [h, hc, hw, WOk] using this
          · simp only [e, if_false]; simpa [hw, Ne.symm e] using this
        all_goals grind [MapLock.upd]
      · refine ⟨fun g => ?_, ?_, ?_⟩
        · have := h1 g
          dsimp only [MapLock.upd]
          by_cases e : g = g'
          · subst e
            simp [h, hc, ek] at this ⊢
            generalize decide (s.writer i = some g) = b at *
            cases b <;> simpa [WOk, Ne.symm ek] using this
          · simpa [e, ek] using this
        all_goals grind [MapLock.upd]

/-- Nobody will unlock shard `i` and nobody new comes in. -/
structure Shut (i : Nat) (s : MapLock.State) : Prop where
  writer : s.writer i ≠ none
  code : ∀ h, WOk i false (s.code h)
  late : (∃ g, RLeak g i s) ∨ ∀ h, s.stat h = .waitW → (s.code h).head? ≠ some (.lock i)
  rest : ∀ h, s.code h = [] → s.stat h = .ready

/-- A goroutine that wants the lock of shard `i` and does not get it. -/
def Outside (i h : Nat) (c : List Instr) (s : MapLock.State) : Prop := s.code h = c ∧ (c.head? = some (.lock i) ∨ c.head? = some (.rlock i) ∧ (s.stat h = .ready ∨ s.stat h = .waitR ∧ h ∈ s.rwait i))

theorem shut_step {n i : Nat} {s t : MapLock.State} {l : MapLeak.Label} (hi : Shut i s) (hs : MapLeak.Step n s l t) : Shut i t ∧ ∀ h c, Outside i h c s → Outside i h c t := by
  obtain ⟨h1, h2, hl, h4⟩ := hi
  have h3 : s.readers i = [] → ∀ h, s.stat h = .waitW → (s.code h).head? ≠ some (.lock i) := by
    rcases hl with ⟨g, hg⟩ | hl
    · exact fun h => absurd h hg.ne
    · exact fun _ => hl
  have hl' : (∃ g, RLeak g i t) ∨ ∀ h, t.stat h = .waitW → (t.code h).head? ≠ some (.lock i) := by
    rcases hl with ⟨g, hg⟩ | hl
    · exact .inl ⟨g, leak_step hg hs⟩
    · right
      cases hs with
      | panic => grind [MapLock.upd]
      | base hs => cases hs <;> grind [MapLock.upd]
  have h4' : ∀ h, t.code h = [] → t.stat h = .ready := by
    cases hs with
    | panic => grind [MapLock.upd]
    | base hs => cases hs <;> grind [MapLock.upd]
  suffices H : t.writer i ≠ none ∧ (∀ h, WOk i false (t.code h)) ∧ ∀ h c, Outside i h c s → Outside i h c t from ⟨⟨H.1, H.2.1, hl', h4'⟩, H.2.2⟩
  clear hl hl' h4'
  cases hs with
  | panic g' c h hc =>
    refine ⟨h1, fun g => ?_, ?_⟩
    · have := h2 g
      dsimp only [MapLock.upd]
      split
      · trivial
      · exact this
    · unfold Outside; grind [MapLock.upd]
  | base hs =>
    cases hs with
    | call g' op hc ho =>
      refine ⟨h1, fun g => ?_, ?_⟩
      · have := h2 g
        dsimp only [MapLock.upd]
        split
        · have := whole_wok (i := i) (whole_op n op ho) false [] trivial
          simpa using this
        · exact this
      · unfold Outside; grind [MapLock.upd]
    | work g' c h hc | rlock g' _ c h hc | runlock g' _ c h hc | resume g' _ c h hc =>
      refine ⟨h1, fun g => ?_, ?_⟩
      · have := h2 g
        dsimp only [MapLock.upd]
        split
        · rename_i e; subst e; rw [hc] at this; exact this
        · exact this
      · unfold Outside; grind [MapLock.upd]
    | rlockWait g' k c h hc => exact ⟨h1, h2, by unfold Outside; grind [MapLock.upd]⟩
    | take g' k c h hc hn => exact ⟨by grind [MapLock.upd], h2, by unfold Outside; grind [MapLock.upd]⟩
    | locked g' k c h hc hn =>
      have hk : k ≠ i := by
        intro e
        subst e
        exact h3 hn g' h (by rw [hc]; rfl)
      refine ⟨h1, fun g => ?_, ?_⟩
      · have := h2 g
        dsimp only [MapLock.upd]
        split
        · rename_i e; subst e; rw [hc] at this; simpa [WOk, hk] using this
        · exact this
      · unfold Outside; grind [MapLock.upd]
    | unlock g' k c h hc =>
      have hg := h2 g'
      rw [hc] at hg
      have hk : k ≠ i := hg.1
      refine ⟨by grind [MapLock.upd], fun g => ?_, ?_⟩
      · have := h2 g
        dsimp only [MapLock.upd]
        split
        · exact hg.2
        · exact this
      · unfold Outside; grind [MapLock.upd]

theorem shut_run {n i : Nat} {ls : List MapLeak.Label} {t u : MapLock.State} (hi : Shut i t) (h : Steps (MapLeak.Step n) t ls u) :
    (∀ w c, t.code w = .lock i :: c → u.code w = .lock i :: c) ∧ ∀ r c, t.code r = .rlock i :: c → t.stat r = .ready → u.code r = .rlock i :: c := by
  have := (h.invariant (P := fun v => Shut i v ∧ ∀ h c, Outside i h c t → Outside i h c v) (fun v l v' hi hs => ⟨(shut_step hi.1 hs).1, fun h c ho => (shut_step hi.1 hs).2 h c (hi.2 h c ho)⟩)
    ⟨hi, fun _ _ h => h⟩)
  exact ⟨fun w c hc => (this.2 w _ ⟨hc, .inl rfl⟩).1, fun r c hc hr => (this.2 r _ ⟨hc, .inr ⟨rfl, .inl hr⟩⟩).1⟩

theorem winv_start {n i : Nat} {ls : List MapLeak.Label} {s : MapLock.State} (h : Steps (MapLeak.Step n) {} ls s) : WInv i s :=
  h.invariant (P := WInv i) (fun _ _ _ hi hs => winv_step hi hs) ⟨fun _ => by simp [WOk], by simp, by simp⟩

/-- After a callback of `RemoveCb` has panicked, whoever wants the lock of the shard, to read or to write, waits for ever. -/
theorem C152_removeCb {n g i : Nat} {ls ls' : List MapLeak.Label} {s t u : MapLock.State} (h : Steps (MapLeak.Step n) {} ls s) (hr : s.writer i = some g) (hp : MapLeak.Step n s (.panic g) t)
    (h' : Steps (MapLeak.Step n) t ls' u) : (∀ w c, t.code w = .lock i :: c → u.code w = .lock i :: c) ∧ ∀ r c, t.code r = .rlock i :: c → t.stat r = .ready → u.code r = .rlock i :: c := by
  have hw : WInv i s := winv_start h
  refine shut_run ?_ h'
  cases hp with
  | panic _ c hst hc =>
    have hl : ∀ h, s.stat h = .waitW → (s.code h).head? ≠ some (.lock i) := fun h h1 h2 => by
      have := hw.wait h h1 h2
      rw [hr] at this
      cases this
      rw [hst] at h1
      cases h1
    refine ⟨by simp [hr], fun h => ?_, .inr fun h h1 => ?_, fun h => ?_⟩
    · have := hw.code h
      dsimp only [MapLock.upd]
      split
      · trivial
      · rename_i e; simpa [hr, Ne.symm e] using this
    · dsimp only [MapLock.upd]
      split
      · simp
      · exact hl h h1
    · have := hw.rest h
      dsimp only [MapLock.upd]
      split
      · rename_i e; subst e; exact fun _ => hst
      · exact this

theorem shut_of_leak {n g i w : Nat} {ls l1 : List MapLeak.Label} {s t u : MapLock.State} {c : List Instr} (h : Steps (MapLeak.Step n) {} ls s) (hr : g ∈ s.readers i) (hp : MapLeak.Step n s (.panic g) t)
    (h1 : Steps (MapLeak.Step n) t l1 u) (hw : u.stat w = .waitW) (hc : u.code w = .lock i :: c) : Shut i u := by
  have hl : RLeak g i u := h1.invariant (P := RLeak g i) (fun _ _ _ hi hs => leak_step hi hs) (leak_start h hr hp)
  have hi : WInv i u := winv_start ((h.snoc hp).append h1)
  have hwr := hi.wait w hw (by rw [hc]; rfl)
  refine ⟨by simp [hwr], fun h => ?_, .inl ⟨g, hl⟩, hi.rest⟩
  have := hi.code h
  by_cases e : h = w
  · subst e; simpa [hwr, hw, hc] using this
  · simpa [hwr, Ne.symm e] using this

/-- After a callback of `IterCb` has panicked, those who want to read the shard wait for ever too, once somebody waits to write it. -/
theorem C152_readers {n g i w : Nat} {ls l1 l2 : List MapLeak.Label} {s t u v : MapLock.State} {c : List Instr} (h : Steps (MapLeak.Step n) {} ls s) (hr : g ∈ s.readers i) (hp : MapLeak.Step n s (.panic g) t)
    (h1 : Steps (MapLeak.Step n) t l1 u) (hw : u.stat w = .waitW) (hc : u.code w = .lock i :: c) (h2 : Steps (MapLeak.Step n) u l2 v) (r : Nat) (d : List Instr) (hd : u.code r = .rlock i :: d) (hs : u.stat r = .ready) :
    v.code r = .rlock i :: d := (shut_run (shut_of_leak h hr hp h1 hw hc) h2).2 r d hd hs

/-- A call without callbacks that will read shard `i` and has not yet. -/
structure Ahead (i r : Nat) (s : MapLock.State) : Prop where
  reads : .rlock i ∈ s.code r
  plain : .work ∉ s.code r
  queue : s.stat r = .waitR → (s.code r).head? = some (.rlock i) → r ∈ s.rwait i

theorem ahead_step {n i r : Nat} {s t : MapLock.State} {l : MapLeak.Label} (hi : Shut i s) (ha : Ahead i r s) (hs : MapLeak.Step n s l t) : Ahead i r t := by
  obtain ⟨h1, h2, h3⟩ := ha
  have h4 := hi.writer
  cases hs with
  | panic g' c h hc =>
    have hne : r ≠ g' := by rintro rfl; rw [hc] at h2; simp at h2
    constructor <;> grind [MapLock.upd]
  | base hs =>
    cases hs with
    | unlock g' k c h hc =>
      have hg := hi.code g'
      rw [hc] at hg
      have hk : k ≠ i := hg.1
      constructor <;> grind [MapLock.upd]
    | _ => constructor <;> grind [MapLock.upd]

/-- After a callback of `IterCb` has panicked and once somebody waits to write the shard, no call of `Count` returns; `Len` of the connection manager, on which the accept loop depends, is such a call. -/
theorem C152_count {n g i w r : Nat} {ls l1 l2 : List MapLeak.Label} {s t u v : MapLock.State} {c : List Instr} (h : Steps (MapLeak.Step n) {} ls s) (hr : g ∈ s.readers i) (hp : MapLeak.Step n s (.panic g) t)
    (h1 : Steps (MapLeak.Step n) t l1 u) (hw : u.stat w = .waitW) (hc : u.code w = .lock i :: c) (h2 : Steps (MapLeak.Step n) u l2 v) (hi : i < n) (hd : u.code r = Op.count.code n) (hs : u.stat r = .ready) :
    v.code r ≠ [] := by
  have hsh : Shut i u := shut_of_leak h hr hp h1 hw hc
  have ha : Ahead i r u := by
    refine ⟨?_, ?_, fun e => by rw [hs] at e; cases e⟩
    · rw [hd]; simp [Op.code, hi]
    · rw [hd]; simp [Op.code]
  have := h2.invariant (P := fun v => Shut i v ∧ Ahead i r v) (fun _ _ _ hi hs => ⟨(shut_step hi.1 hs).1, ahead_step hi.1 hi.2 hs⟩) ⟨hsh, ha⟩
  intro e
  have h3 := this.2.reads
  rw [e] at h3
  cases h3

/-- A goroutine has a callback of `IterCb` panic, another one calls `Set` and never returns. -/
theorem C152_refuted : ∃ ls t, Steps (MapLeak.Step someShards) {} ls t ∧ (∀ g op, .base (.call g op) ∈ ls → plainOp op) ∧ t.code 0 = [] ∧
    ∀ ls' u, Steps (MapLeak.Step someShards) t ls' u → u.code 1 ≠ [] := by
  obtain ⟨s, c, h1, h2, h3, h4, h5⟩ : ∃ s c, Steps (MapLeak.Step someShards) {} [.base (.call 1 (.write 0)), .base (.call 0 (.iter (firstShard [.work]))), .base (.own 0)] s ∧ s.stat 0 = .ready ∧
      s.code 0 = .work :: c ∧ 0 ∈ s.readers 0 ∧ s.code 1 = [.lock 0, .unlock 0] :=
    ⟨_, _, .cons (.base (.call _ 1 (.write 0) rfl trivial)) <| .cons (.base (.call _ 0 (.iter (firstShard [.work])) rfl (firstShard_wf .work))) <| .cons (.base (.rlock _ 0 0 _ rfl rfl rfl)) (.nil _), rfl, rfl,
      by simp [MapLock.upd], rfl⟩
  refine ⟨_, _, h1.snoc (.panic 0 c h2 h3), ?_, by simp [MapLock.upd], fun ls' u h => ?_⟩
  · intro g op hm
    simp at hm
    rcases hm with ⟨_, rfl⟩ | ⟨_, rfl⟩
    · trivial
    · intro i x hx
      unfold firstShard at hx
      split at hx <;> simp_all
  · have := (C152_stuck h1 (g := 0) (i := 0) h4 (.panic 0 c h2 h3) h).2 1 [.unlock 0] (by simpa [MapLock.upd] using h5)
    rw [this]
    simp

/-- As long as no callback panics, every call returns, under the conditions of `C90_partial`. -/
theorem C152_partial (n : Nat) (e : Exec (MapLeak.Step n)) (h0 : e.run 0 = {}) (hq : ∀ k g, e.act k ≠ some (.panic g)) (hp : ∀ k g op, e.act k = some (.base (.call g op)) → plainOp op)
    (hown : ∀ g, e.WeakFair (· = .base (.own g))) (hwork : ∀ g, e.WeakFair (· = .base (.work g))) (htake : ∀ g, e.StrongFair (· = .base (.take g))) (g k : Nat) : ∃ m, k ≤ m ∧ (e.run m).code g = [] := by
  let act' : Nat → Option MapLock.Label := fun n => match e.act n with | some (.base l) => some l | _ => none
  have ha : ∀ n l, act' n = some l ↔ e.act n = some (.base l) := by
    intro n l
    show (match e.act n with | some (.base l) => some l | _ => none) = some l ↔ _
    split <;> simp_all
  let e' : Exec (MapLock.Step n) := ⟨e.run, act', fun m => by
    have hn := e.next m
    cases hm : act' m with
    | some l => rw [(ha m l).mp hm] at hn; cases hn with | base h => exact h
    | none =>
      cases hm' : e.act m with
      | none => rw [hm'] at hn; exact hn
      | some l =>
        cases l with
        | base l => rw [(ha m l).mpr hm'] at hm; cases hm
        | panic g => exact absurd hm' (hq m g)⟩
  have hen : ∀ l0 s, Enabled (MapLock.Step n) (· = l0) s → Enabled (MapLeak.Step n) (· = .base l0) s := fun l0 s ⟨l, t, h, hs⟩ => ⟨.base l, t, by rw [h], .base hs⟩
  refine C90_partial n e' h0 (fun k g op h => hp k g op ((ha k _).mp h)) (fun g m h => ?_) (fun g m h => ?_) (fun g m h => ?_) g k
  · obtain ⟨m', l, h1, h2, rfl⟩ := hown g m (fun m' hm => hen _ _ (h m' hm))
    exact ⟨m', _, h1, (ha _ _).mpr h2, rfl⟩
  · obtain ⟨m', l, h1, h2, rfl⟩ := hwork g m (fun m' hm => hen _ _ (h m' hm))
    exact ⟨m', _, h1, (ha _ _).mpr h2, rfl⟩
  · obtain ⟨m', l, h1, h2, rfl⟩ := htake g m (fun m' hm => by obtain ⟨k, h1, h2⟩ := h m' hm; exact ⟨k, h1, hen _ _ h2⟩)
    exact ⟨m', _, h1, (ha _ _).mpr h2, rfl⟩

theorem leak_base {n : Nat} {s t : MapLock.State} {ls : List MapLock.Label} (h : Steps (MapLock.Step n) s ls t) : Steps (MapLeak.Step n) s (ls.map .base) t := by
  induction h with
  | nil => exact .nil _
  | cons hs _ ih => exact .cons (.base hs) ih

/-- The hypotheses of `C152_stuck`: a `Set` waits while a callback of `IterCb` panics. -/
example : ∃ ls s t, Steps (MapLeak.Step 1) {} ls s ∧ 0 ∈ s.readers 0 ∧ MapLeak.Step 1 s (.panic 0) t ∧ t.code 1 = [.lock 0, .unlock 0] :=
  ⟨_, _, _, .cons (.base (.call _ 0 (.iter fun _ => [.work]) rfl (fun _ => .work))) <| .cons (.base (.rlock _ 0 0 [.work, .runlock 0] rfl rfl rfl)) <| .cons (.base (.call _ 1 (.write 0) rfl trivial)) (.nil _),
    by simp [MapLock.upd], .panic 0 [.runlock 0] rfl rfl, rfl⟩

/-- The hypotheses of `C152_removeCb`: a `Set` and a `Get` wait while a callback of `RemoveCb` panics. -/
example : ∃ ls s t, Steps (MapLeak.Step 1) {} ls s ∧ s.writer 0 = some 0 ∧ MapLeak.Step 1 s (.panic 0) t ∧ t.code 1 = [.lock 0, .unlock 0] ∧ t.code 2 = [.rlock 0, .runlock 0] ∧ t.stat 2 = .ready :=
  ⟨_, _, _, .cons (.base (.call _ 0 (.writeCb 0 [.work]) rfl .work)) <| .cons (.base (.take _ 0 0 [.work, .unlock 0] rfl rfl rfl)) <| .cons (.base (.locked _ 0 0 [.work, .unlock 0] rfl rfl rfl)) <|
      .cons (.base (.call _ 1 (.write 0) rfl trivial)) <| .cons (.base (.call _ 2 (.read 0) rfl trivial)) (.nil _),
    rfl, .panic 0 [.unlock 0] rfl rfl, rfl, rfl, rfl⟩

/-- The hypotheses of `C152_readers`: after the panic a `Set` waits, then there is a `Get`. -/
example : ∃ ls s t l1 u, Steps (MapLeak.Step 1) {} ls s ∧ 0 ∈ s.readers 0 ∧ MapLeak.Step 1 s (.panic 0) t ∧ Steps (MapLeak.Step 1) t l1 u ∧ u.stat 1 = .waitW ∧ u.code 1 = [.lock 0, .unlock 0] ∧
    u.code 2 = [.rlock 0, .runlock 0] ∧ u.stat 2 = .ready :=
  ⟨_, _, _, _, _, .cons (.base (.call _ 0 (.iter fun _ => [.work]) rfl (fun _ => .work))) <| .cons (.base (.rlock _ 0 0 [.work, .runlock 0] rfl rfl rfl)) (.nil _), by simp [MapLock.upd], .panic 0 [.runlock 0] rfl rfl,
    .cons (.base (.call _ 1 (.write 0) rfl trivial)) <| .cons (.base (.take _ 1 0 [.unlock 0] rfl rfl rfl)) <| .cons (.base (.call _ 2 (.read 0) rfl trivial)) (.nil _), rfl, rfl, rfl, rfl⟩

/-- The hypotheses of `C152_count`: the panic is in the second shard of two. -/
example : ∃ ls s t l1 u, Steps (MapLeak.Step 2) {} ls s ∧ 0 ∈ s.readers 1 ∧ MapLeak.Step 2 s (.panic 0) t ∧ Steps (MapLeak.Step 2) t l1 u ∧ u.stat 1 = .waitW ∧ u.code 1 = [.lock 1, .unlock 1] ∧
    u.code 2 = Op.count.code 2 ∧ u.stat 2 = .ready :=
  ⟨_, _, _, _, _, .cons (.base (.call _ 0 (.iter fun i => if i = 1 then [.work] else []) rfl (fun i => by dsimp only; split <;> first | exact .work | exact .nil))) <|
      .cons (.base (.rlock _ 0 0 [.runlock 0, .rlock 1, .work, .runlock 1] rfl rfl rfl)) <| .cons (.base (.runlock _ 0 0 [.rlock 1, .work, .runlock 1] rfl rfl)) <|
      .cons (.base (.rlock _ 0 1 [.work, .runlock 1] rfl rfl rfl)) (.nil _), by simp [MapLock.upd], .panic 0 [.runlock 1] rfl rfl,
    .cons (.base (.call _ 1 (.write 1) rfl trivial)) <| .cons (.base (.take _ 1 1 [.unlock 1] rfl rfl rfl)) <| .cons (.base (.call _ 2 .count rfl trivial)) (.nil _), rfl, rfl, rfl, rfl⟩

/-- The hypotheses of `C152_partial`: the execution of `maplock_example`. -/
example : ∃ e : Exec (MapLeak.Step 1), e.run 0 = {} ∧ (∀ k g, e.act k ≠ some (.panic g)) ∧ (∀ k g op, e.act k = some (.base (.call g op)) → plainOp op) ∧ (∀ g, e.WeakFair (· = .base (.own g))) ∧
    (∀ g, e.WeakFair (· = .base (.work g))) ∧ (∀ g, e.StrongFair (· = .base (.take g))) ∧ ∃ k, e.act k = some (.base (.call 1 (.write 0))) := by
  obtain ⟨ls, t, h, h1, h2, h3, h4, _⟩ := maplock_example
  obtain ⟨e, e1, e2, e3, e4⟩ := Exec.ofSteps (leak_base h)
  have hm : ∀ k l, e.act k = some l → ∃ l', l' ∈ ls ∧ .base l' = l := fun k l hk => List.mem_map.mp (List.mem_of_getElem? (by rw [← e2, hk]))
  refine ⟨e, e1, fun k g hk => ?_, fun k g op hk => ?_, fun g => Exec.weakFair_of_end e4 ?_, fun g => Exec.weakFair_of_end e4 ?_, fun g => Exec.strongFair_of_end e4 ?_, ?_⟩
  · obtain ⟨l, _, hl⟩ := hm k _ hk; cases hl
  · obtain ⟨l, hl, e⟩ := hm k _ hk; cases e; exact h2 g op hl
  · rintro ⟨l, u, rfl, hs⟩; have := h1 g; cases hs with | base hs => cases hs <;> simp_all
  · rintro ⟨l, u, rfl, hs⟩; have := h1 g; cases hs with | base hs => cases hs <;> simp_all
  · rintro ⟨l, u, rfl, hs⟩; have := h1 g; cases hs with | base hs => cases hs <;> simp_all
  · obtain ⟨k, hk⟩ := List.getElem?_of_mem h4
    exact ⟨k, by rw [e2, List.getElem?_map, hk]; rfl⟩

end Zinx.Props
