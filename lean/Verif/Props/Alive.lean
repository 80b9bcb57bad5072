import Verif.Model.Alive

/-! # C43: when the heartbeat declares a connection dead -/

namespace Zinx.Props

open Zinx.Alive

/-- Time taken by a sequence of actions, in nanoseconds. -/
def timeOf (ls : List Alive.Label) : Int := (ls.map fun | .advance d => (d : Int) | _ => 0).sum

/-- The action notes that data was received (or that the connection started). -/
def isActivity : Alive.Label → Bool
  | .update => true
  | .firstUpdate => true
  | _ => false

/-- Nanoseconds since the last noted activity; `none` if there was none. -/
def silentFor (ls : List Alive.Label) : Option Int :=
  if ls.any isActivity then some (timeOf (ls.reverse.takeWhile fun l => !isActivity l)) else none

/-- Actions of the checker's goroutine in its loop. -/
def isCheck : Alive.Label → Bool
  | .checkBegin => true
  | .verdict _ => true
  | .beat => true
  | .notAlive => true
  | _ => false

theorem timeOf_append (a b : List Alive.Label) : timeOf (a ++ b) = timeOf a + timeOf b := by
  unfold timeOf; rw [List.map_append, List.sum_append]

theorem timeOf_reverse (a : List Alive.Label) : timeOf a.reverse = timeOf a := by
  unfold timeOf; rw [List.map_reverse, List.sum_reverse]

theorem timeOf_single (l : Alive.Label) : timeOf [l] = (match l with | .advance d => (d : Int) | _ => 0) := by
  unfold timeOf; simp

theorem silentFor_snoc_activity (ls : List Alive.Label) {l : Alive.Label} (h : isActivity l = true) : silentFor (ls ++ [l]) = some 0 := by
  unfold silentFor
  rw [List.any_append, List.reverse_append]
  simp [h, timeOf]

theorem silentFor_snoc_other (ls : List Alive.Label) {l : Alive.Label} (h : isActivity l = false) :
    silentFor (ls ++ [l]) = (silentFor ls).map (· + timeOf [l]) := by
  unfold silentFor
  rw [List.any_append, List.reverse_append, List.reverse_singleton, List.singleton_append, List.takeWhile_cons]
  have h1 : (ls.any isActivity || [l].any isActivity) = ls.any isActivity := by
    rw [List.any_cons, h, List.any_nil, Bool.or_false, Bool.or_false]
  rw [h1, h]
  split
  · show some _ = some _
    congr 1
    show timeOf ([l] ++ _) = _
    rw [timeOf_append, Int.add_comm]
  · rfl

/-- What the history says about the state. -/
structure AliveInv (ls : List Alive.Label) (s : Alive.State) : Prop where
  now : s.now = timeOf ls
  last : silentFor ls = s.last.map fun t => s.now - t
  closed : s.closed = ls.any (· == .stop)
  hb : s.hb = .closedSeen → ∃ a b, ls = a ++ .checkBegin :: b ∧ .checkBegin ∉ b ∧ .stop ∈ a
  hb2 : s.hb = .timing → ∃ a b, ls = a ++ .checkBegin :: b ∧ .checkBegin ∉ b ∧ .stop ∉ a
  timed : 0 ≤ s.now ∧ ∀ t, s.last = some t → 0 ≤ t ∧ t ≤ s.now

theorem aliveInv {hm : Int} {s t : Alive.State} {ls : List Alive.Label} (h : Steps (Alive.Step hm) s ls t) (h0 : AliveInv [] s) : AliveInv ls t := by
  refine Steps.invariant_trace (P := AliveInv) ?_ h h0
  intro ls s l t hi hs
  have hext1 : ∀ l : Alive.Label, l ≠ .checkBegin → (∃ a b, ls = a ++ .checkBegin :: b ∧ Label.checkBegin ∉ b ∧ Label.stop ∈ a) →
      ∃ a b, ls ++ [l] = a ++ .checkBegin :: b ∧ Label.checkBegin ∉ b ∧ Label.stop ∈ a := by
    rintro l hl ⟨a, b, e, h1, h2⟩
    refine ⟨a, b ++ [l], by rw [e]; simp, ?_, h2⟩
    rw [List.mem_append, List.mem_singleton]
    rintro (h | h)
    · exact h1 h
    · exact hl h.symm
  have hext2 : ∀ l : Alive.Label, l ≠ .checkBegin → (∃ a b, ls = a ++ .checkBegin :: b ∧ Label.checkBegin ∉ b ∧ Label.stop ∉ a) →
      ∃ a b, ls ++ [l] = a ++ .checkBegin :: b ∧ Label.checkBegin ∉ b ∧ Label.stop ∉ a := by
    rintro l hl ⟨a, b, e, h1, h2⟩
    refine ⟨a, b ++ [l], by rw [e]; simp, ?_, h2⟩
    rw [List.mem_append, List.mem_singleton]
    rintro (h | h)
    · exact h1 h
    · exact hl h.symm
  have htime : ∀ l : Alive.Label, (∀ d, l ≠ .advance d) → timeOf (ls ++ [l]) = timeOf ls := by
    intro l hl
    rw [timeOf_append, timeOf_single]
    cases l <;> first | exact absurd rfl (hl _) | exact Int.add_zero _
  have hsil : ∀ l : Alive.Label, (∀ d, l ≠ .advance d) → isActivity l = false → silentFor (ls ++ [l]) = silentFor ls := by
    intro l hl ha
    rw [silentFor_snoc_other ls ha]
    have : timeOf [l] = 0 := by
      rw [timeOf_single]
      cases l <;> first | exact absurd rfl (hl _) | rfl
    rw [this]
    cases silentFor ls with
    | none => rfl
    | some x => exact congrArg some (Int.add_zero x)
  have hcl : ∀ l : Alive.Label, l ≠ .stop → (ls ++ [l]).any (· == .stop) = ls.any (· == .stop) := by
    intro l hl
    rw [List.any_append]
    have : [l].any (· == .stop) = false := by
      cases l <;> first | exact absurd rfl hl | rfl
    rw [this, Bool.or_false]
  obtain ⟨i1, i2, i3, i4, i5, i6, i7⟩ := hi
  cases hs with
  | advance d =>
    refine ⟨?_, ?_, ?_, fun h => hext1 _ (by nofun) (i4 h), fun h => hext2 _ (by nofun) (i5 h), ?_, ?_⟩
    · dsimp only; rw [timeOf_append, timeOf_single, i1]
    · rw [silentFor_snoc_other ls rfl, i2, timeOf_single]
      dsimp only
      cases s.last with
      | none => rfl
      | some x => show some _ = some _; dsimp only; congr 1; omega
    · exact i3.trans (hcl _ (by nofun)).symm
    · dsimp only; omega
    · intro t ht
      have := i7 t ht
      dsimp only; omega
  | hbStart h =>
    exact ⟨i1.trans (htime _ (by nofun)).symm, (hsil _ (by nofun) rfl).trans i2, i3.trans (hcl _ (by nofun)).symm, nofun, nofun, i6, i7⟩
  | firstUpdate h1 h2 =>
    refine ⟨i1.trans (htime _ (by nofun)).symm, ?_, i3.trans (hcl _ (by nofun)).symm, fun h => hext1 _ (by nofun) (i4 h), fun h => hext2 _ (by nofun) (i5 h), i6, ?_⟩
    · rw [silentFor_snoc_activity ls rfl]; show some _ = some _; dsimp only; rw [Int.sub_self]
    · intro t ht; injection ht with ht; dsimp only at ht ⊢; omega
  | arrive n h =>
    exact ⟨i1.trans (htime _ (by nofun)).symm, (hsil _ (by nofun) rfl).trans i2, i3.trans (hcl _ (by nofun)).symm, fun h => hext1 _ (by nofun) (i4 h),
      fun h => hext2 _ (by nofun) (i5 h), i6, i7⟩
  | read n h1 h2 h3 h4 =>
    exact ⟨i1.trans (htime _ (by nofun)).symm, (hsil _ (by nofun) rfl).trans i2, i3.trans (hcl _ (by nofun)).symm, fun h => hext1 _ (by nofun) (i4 h),
      fun h => hext2 _ (by nofun) (i5 h), i6, i7⟩
  | update h =>
    refine ⟨i1.trans (htime _ (by nofun)).symm, ?_, i3.trans (hcl _ (by nofun)).symm, fun h => hext1 _ (by nofun) (i4 h), fun h => hext2 _ (by nofun) (i5 h), i6, ?_⟩
    · rw [silentFor_snoc_activity ls rfl]; show some _ = some _; dsimp only; rw [Int.sub_self]
    · intro t ht; injection ht with ht; dsimp only at ht ⊢; omega
  | handed h =>
    exact ⟨i1.trans (htime _ (by nofun)).symm, (hsil _ (by nofun) rfl).trans i2, i3.trans (hcl _ (by nofun)).symm, fun h => hext1 _ (by nofun) (i4 h),
      fun h => hext2 _ (by nofun) (i5 h), i6, i7⟩
  | stop =>
    refine ⟨i1.trans (htime _ (by nofun)).symm, (hsil _ (by nofun) rfl).trans i2, ?_, fun h => hext1 _ (by nofun) (i4 h), fun h => hext2 _ (by nofun) (i5 h), i6, i7⟩
    rw [List.any_append]
    show true = (_ || true)
    rw [Bool.or_true]
  | checkBegin h =>
    refine ⟨i1.trans (htime _ (by nofun)).symm, (hsil _ (by nofun) rfl).trans i2, i3.trans (hcl _ (by nofun)).symm, ?_, ?_, i6, i7⟩
    · intro hh
      refine ⟨ls, [], rfl, nofun, ?_⟩
      dsimp only at hh
      by_cases hc : s.closed = true
      · rw [i3, List.any_eq_true] at hc
        obtain ⟨x, hx, he⟩ := hc
        rw [beq_iff_eq] at he
        exact he ▸ hx
      · rw [if_neg hc] at hh; cases hh
    · intro hh
      refine ⟨ls, [], rfl, nofun, ?_⟩
      dsimp only at hh
      by_cases hc : s.closed = true
      · rw [if_pos hc] at hh; cases hh
      · intro hm
        apply hc
        rw [i3, List.any_eq_true]
        exact ⟨_, hm, beq_self_eq_true _⟩
  | verdictClosed h =>
    exact ⟨i1.trans (htime _ (by nofun)).symm, (hsil _ (by nofun) rfl).trans i2, i3.trans (hcl _ (by nofun)).symm, nofun, nofun, i6, i7⟩
  | verdictTime h =>
    exact ⟨i1.trans (htime _ (by nofun)).symm, (hsil _ (by nofun) rfl).trans i2, i3.trans (hcl _ (by nofun)).symm, nofun, nofun, i6, i7⟩
  | beat h =>
    exact ⟨i1.trans (htime _ (by nofun)).symm, (hsil _ (by nofun) rfl).trans i2, i3.trans (hcl _ (by nofun)).symm, nofun, nofun, i6, i7⟩
  | notAlive h =>
    exact ⟨i1.trans (htime _ (by nofun)).symm, (hsil _ (by nofun) rfl).trans i2, i3.trans (hcl _ (by nofun)).symm, nofun, nofun, i6, i7⟩

theorem limit_eq {hm : Int} (h0 : 0 ≤ hm) (h1 : hm * 1000000000 < 2 ^ 63) : Alive.limit hm = hm * 1000000000 := by
  unfold Alive.limit wrap64
  rw [Int.bmod_eq_of_le_mul_two] <;> omega

theorem aliveInv_init : AliveInv [] {} := ⟨rfl, rfl, rfl, nofun, nofun, Int.le_refl _, nofun⟩

/-- The verdict of every check, in terms of what happened before: the connection is declared dead iff it was stopped before the check began or no received data
has been noted for `HeartbeatMax` seconds. -/
theorem C43_partial (hm : Int) (h0 : 0 ≤ hm) (h1 : hm * 1000000000 < 2 ^ 63) (ls : List Alive.Label) (b : Bool) (t : Alive.State)
    (h : Steps (Alive.Step hm) {} (ls ++ [.verdict b]) t) :
    ∃ pre mid, ls = pre ++ .checkBegin :: mid ∧ Label.checkBegin ∉ mid ∧
      (b = false ↔ Label.stop ∈ pre ∨ ∀ x, silentFor ls = some x → hm * 1000000000 ≤ x) := by
  obtain ⟨s, hs, hv⟩ := Steps.unsnoc h
  have hi := aliveInv hs aliveInv_init
  cases hv with
  | verdictClosed hc =>
    obtain ⟨pre, mid, e, hn, hst⟩ := hi.hb hc
    exact ⟨pre, mid, e, hn, ⟨fun _ => .inl hst, fun _ => rfl⟩⟩
  | verdictTime hc =>
    obtain ⟨pre, mid, e, hn, hst⟩ := hi.hb2 hc
    refine ⟨pre, mid, e, hn, ?_⟩
    rw [decide_eq_false_iff_not, limit_eq h0 h1, hi.last]
    have hlt := hi.timed.2
    constructor
    · intro hx
      right
      intro x hxe
      cases hl : s.last with
      | none => rw [hl] at hxe; cases hxe
      | some t0 =>
        rw [hl] at hx hxe
        injection hxe with hxe
        replace hxe : s.now - t0 = x := hxe
        unfold elapsed maxDuration at hx
        dsimp only at hx
        omega
    · rintro (hx | hx)
      · exact absurd hx hst
      · cases hl : s.last with
        | none => unfold elapsed maxDuration; dsimp only; omega
        | some t0 =>
          rw [hl] at hx
          have hx' : hm * 1000000000 ≤ s.now - t0 := hx _ rfl
          unfold elapsed maxDuration
          dsimp only
          omega

/-- Sequences of complete checks: each begins, reaches a verdict, and then either sends one heartbeat or reports the connection as not alive, once. -/
inductive Rounds : List Alive.Label → Prop where
  | nil : Rounds []
  | alive {ls : List Alive.Label} : Rounds ls → Rounds (ls ++ [.checkBegin, .verdict true, .beat])
  | dead {ls : List Alive.Label} : Rounds ls → Rounds (ls ++ [.checkBegin, .verdict false, .notAlive])

/-- Where the checker is, given its actions so far. -/
def hbAt (s : Alive.State) (cs : List Alive.Label) : Prop :=
  match s.hb with
  | .off => cs = []
  | .waiting => Rounds cs
  | .timing => ∃ r, Rounds r ∧ cs = r ++ [.checkBegin]
  | .closedSeen => ∃ r, Rounds r ∧ cs = r ++ [.checkBegin]
  | .decided b => ∃ r, Rounds r ∧ cs = r ++ [.checkBegin, .verdict b]

/-- Every check that is completed sends exactly one heartbeat if its verdict was alive, and otherwise reports the connection, once. -/
theorem C43_one_action (hm : Int) (ls : List Alive.Label) (t : Alive.State) (h : Steps (Alive.Step hm) {} ls t) (hw : t.hb = .waiting) :
    Rounds (ls.filter isCheck) := by
  have : hbAt t (ls.filter isCheck) := by
    refine Steps.invariant_trace (P := fun ls s => hbAt s (ls.filter isCheck)) ?_ h rfl
    intro ls s l t hi hs
    rw [List.filter_append]
    cases hs with
    | hbStart h =>
      unfold hbAt at hi ⊢
      rw [h] at hi
      dsimp only at hi ⊢
      rw [hi]; exact .nil
    | checkBegin h =>
      unfold hbAt at hi ⊢
      rw [h] at hi
      dsimp only at hi ⊢
      by_cases e : s.closed = true
      · rw [if_pos e]; exact ⟨_, hi, rfl⟩
      · rw [if_neg e]; exact ⟨_, hi, rfl⟩
    | verdictClosed h =>
      unfold hbAt at hi ⊢
      rw [h] at hi
      dsimp only at hi ⊢
      obtain ⟨r, hr, e⟩ := hi
      exact ⟨r, hr, by rw [e, List.append_assoc]; rfl⟩
    | verdictTime h =>
      unfold hbAt at hi ⊢
      rw [h] at hi
      dsimp only at hi ⊢
      obtain ⟨r, hr, e⟩ := hi
      exact ⟨r, hr, by rw [e, List.append_assoc]; rfl⟩
    | beat h =>
      unfold hbAt at hi ⊢
      rw [h] at hi
      dsimp only at hi ⊢
      obtain ⟨r, hr, e⟩ := hi
      rw [e, List.append_assoc]
      exact hr.alive
    | notAlive h =>
      unfold hbAt at hi ⊢
      rw [h] at hi
      dsimp only at hi ⊢
      obtain ⟨r, hr, e⟩ := hi
      rw [e, List.append_assoc]
      exact hr.dead
    | _ =>
      rw [show List.filter isCheck [_] = [] from rfl, List.append_nil]
      exact hi
  unfold hbAt at this
  rw [hw] at this
  exact this

/-- Actions of the reader. -/
def isReader : Alive.Label → Bool
  | .read _ => true
  | .update => true
  | .handed => true
  | _ => false

/-- What the reader does: again and again it reads at least one byte, notes it and hands it on. -/
inductive ReaderRounds : List Alive.Label → Prop where
  | nil : ReaderRounds []
  | round {ls : List Alive.Label} (n : Nat) : ReaderRounds ls → 0 < n → ReaderRounds (ls ++ [.read n, .update, .handed])

/-- Bytes that have arrived. -/
def arrivedBytes (ls : List Alive.Label) : Nat := (ls.map fun | .arrive n => n | _ => 0).sum

/-- Bytes that have been read. -/
def readBytes (ls : List Alive.Label) : Nat := (ls.map fun | .read n => n | _ => 0).sum

/-- Every read is followed by a note. -/
def allNoted (ls : List Alive.Label) : Prop := ∀ a b n, ls = a ++ .read n :: b → Label.update ∈ b

/-- Nanoseconds since the last arrival of bytes; `none` if there was none. -/
def sinceArrival (ls : List Alive.Label) : Option Int :=
  if ls.any (fun | .arrive _ => true | _ => false) then some (timeOf (ls.reverse.takeWhile fun | .arrive _ => false | _ => true)) else none

structure ReaderInv (ls : List Alive.Label) (s : Alive.State) : Prop where
  loop : ∃ r, ReaderRounds r ∧ (match s.reader with
    | .reading => ls.filter isReader = r
    | .got => ∃ n, 0 < n ∧ ls.filter isReader = r ++ [.read n]
    | .busy => ∃ n, 0 < n ∧ ls.filter isReader = r ++ [.read n, .update])
  bytes : s.inbox + readBytes ls = arrivedBytes ls
  began : s.started = true ↔ Label.firstUpdate ∈ ls
  after : ∀ a b n, ls = a ++ .read n :: b → Label.firstUpdate ∈ a
  fresh : s.inbox = 0 → s.reader ≠ .got → ∀ x, sinceArrival ls = some x → ∃ y, silentFor ls = some y ∧ y ≤ x
  pos : ∀ x, sinceArrival ls = some x → 0 ≤ x

theorem readerInv_step {hm : Int} {ls : List Alive.Label} {s t : Alive.State} {l : Alive.Label} (hi : ReaderInv ls s) (hs : Alive.Step hm s l t) : ReaderInv (ls ++ [l]) t := by
  obtain ⟨⟨r, hr, h1⟩, h2, h3, h4, h5, h6⟩ := hi
  have hafter : ∀ l : Alive.Label, (∀ n, l = .read n → Label.firstUpdate ∈ ls) → ∀ a b n, ls ++ [l] = a ++ .read n :: b → Label.firstUpdate ∈ a := by
    intro l hl a b n e
    rcases List.eq_nil_or_concat b with rfl | ⟨b', z, rfl⟩
    · obtain ⟨e1, e2⟩ := List.append_inj' e rfl
      cases e2
      exact e1 ▸ hl n rfl
    · rw [List.concat_eq_append, ← List.cons_append, ← List.append_assoc] at e
      obtain ⟨e1, e2⟩ := List.append_inj' e rfl
      exact h4 a b' n e1
  have hbytes : ∀ l : Alive.Label, arrivedBytes (ls ++ [l]) = arrivedBytes ls + (match l with | .arrive n => n | _ => 0) ∧ readBytes (ls ++ [l]) = readBytes ls + (match l with | .read n => n | _ => 0) := by
    intro l
    unfold arrivedBytes readBytes
    cases l <;> simp
  have hsince : ∀ l : Alive.Label, (∀ n, l ≠ .arrive n) → sinceArrival (ls ++ [l]) = (sinceArrival ls).map (· + timeOf [l]) := by
    intro l hl
    unfold sinceArrival
    rw [List.any_append, List.reverse_append, List.reverse_singleton, List.singleton_append, List.takeWhile_cons]
    cases l <;> first | exact absurd rfl (hl _) | (
      simp only [List.any_cons, List.any_nil, Bool.or_false]
      split
      · show some _ = some _
        congr 1
        rw [if_pos trivial, ← List.singleton_append, timeOf_append, Int.add_comm]
      · rfl)
  have hlast : ∀ n, sinceArrival (ls ++ [.arrive n]) = some 0 := by
    intro n
    unfold sinceArrival
    simp [timeOf]
  have ht0 : ∀ l : Alive.Label, 0 ≤ timeOf [l] := by
    intro l
    rw [timeOf_single]
    cases l <;> simp
  have hpos : ∀ l : Alive.Label, ∀ x, sinceArrival (ls ++ [l]) = some x → 0 ≤ x := by
    intro l x hx
    by_cases hl : ∃ n, l = .arrive n
    · obtain ⟨n, rfl⟩ := hl
      rw [hlast] at hx
      cases hx
      exact Int.le_refl _
    · rw [hsince l (fun n e => hl ⟨n, e⟩)] at hx
      cases he : sinceArrival ls with
      | none => rw [he] at hx; cases hx
      | some z =>
        rw [he] at hx
        cases hx
        have := h6 z he
        have := ht0 l
        dsimp only
        omega
  -- a label that is neither activity nor arrival keeps `fresh`
  have hkeep : ∀ l : Alive.Label, (∀ n, l ≠ .arrive n) → isActivity l = false → (∀ x, sinceArrival ls = some x → ∃ y, silentFor ls = some y ∧ y ≤ x) →
      ∀ x, sinceArrival (ls ++ [l]) = some x → ∃ y, silentFor (ls ++ [l]) = some y ∧ y ≤ x := by
    intro l hl ha hf x hx
    rw [hsince l hl] at hx
    cases he : sinceArrival ls with
    | none => rw [he] at hx; cases hx
    | some z =>
      rw [he] at hx
      cases hx
      obtain ⟨y, hy, hyz⟩ := hf z he
      exact ⟨y + timeOf [l], by rw [silentFor_snoc_other ls ha, hy]; rfl, by dsimp only; omega⟩
  -- an activity makes it true
  have hact : ∀ l : Alive.Label, isActivity l = true → ∀ x, sinceArrival (ls ++ [l]) = some x → ∃ y, silentFor (ls ++ [l]) = some y ∧ y ≤ x :=
    fun l ha x hx => ⟨0, silentFor_snoc_activity ls ha, hpos l x hx⟩
  have hfilter : ∀ l : Alive.Label, isReader l = false → (ls ++ [l]).filter isReader = ls.filter isReader := by
    intro l hl
    simp [hl]
  have hfirst : ∀ l : Alive.Label, l ≠ .firstUpdate → (Label.firstUpdate ∈ ls ++ [l] ↔ Label.firstUpdate ∈ ls) := by
    intro l hl
    simp [Ne.symm hl]
  cases hs with
  | firstUpdate g1 g2 =>
    exact ⟨⟨r, hr, by rw [hfilter _ rfl]; exact h1⟩, by rw [(hbytes _).1, (hbytes _).2]; exact h2, by simp, hafter _ nofun, fun _ _ => hact _ rfl, hpos _⟩
  | arrive n g =>
    refine ⟨⟨r, hr, by rw [hfilter _ rfl]; exact h1⟩, by rw [(hbytes _).1, (hbytes _).2]; dsimp only; omega, by rw [hfirst _ (by nofun)]; exact h3, hafter _ nofun, fun h => ?_, hpos _⟩
    dsimp only at h
    omega
  | read n g1 g2 g3 g4 =>
    rw [g2] at h1
    refine ⟨⟨r, hr, n, g3, ?_⟩, by rw [(hbytes _).1, (hbytes _).2]; dsimp only; omega, by rw [hfirst _ (by nofun)]; exact h3, hafter _ (fun _ _ => h3.1 g1), fun _ h => absurd rfl h, hpos _⟩
    rw [List.filter_append, h1]
    rfl
  | update g =>
    rw [g] at h1
    obtain ⟨n, hn, h1⟩ := h1
    refine ⟨⟨r, hr, n, hn, ?_⟩, by rw [(hbytes _).1, (hbytes _).2]; exact h2, by rw [hfirst _ (by nofun)]; exact h3, hafter _ nofun, fun _ _ => hact _ rfl, hpos _⟩
    rw [List.filter_append, h1, List.append_assoc]
    rfl
  | handed g =>
    rw [g] at h1
    obtain ⟨n, hn, h1⟩ := h1
    refine ⟨⟨_, hr.round n hn, ?_⟩, by rw [(hbytes _).1, (hbytes _).2]; exact h2, by rw [hfirst _ (by nofun)]; exact h3, hafter _ nofun,
      fun h _ => hkeep _ (by nofun) rfl (h5 h (by rw [g]; nofun)), hpos _⟩
    show List.filter isReader (ls ++ [Label.handed]) = _
    rw [List.filter_append, h1, List.append_assoc]
    rfl
  | _ =>
    exact ⟨⟨r, hr, by rw [hfilter _ rfl]; exact h1⟩, by rw [(hbytes _).1, (hbytes _).2]; exact h2, by rw [hfirst _ (by nofun)]; exact h3, hafter _ nofun,
      fun g1 g2 => hkeep _ (by nofun) rfl (h5 g1 g2), hpos _⟩

theorem readerInv {hm : Int} {ls : List Alive.Label} {t : Alive.State} (h : Steps (Alive.Step hm) {} ls t) : ReaderInv ls t :=
  Steps.invariant_trace (P := ReaderInv) (fun _ _ _ _ hi hs => readerInv_step hi hs) h ⟨⟨[], .nil, rfl⟩, rfl, by simp, by simp, nofun, nofun⟩

/-- Activity is only noted for data: the reader does nothing but read at least one byte, note it, hand it on; it reads no more than has arrived and nothing before the connection has started. -/
theorem C43_noted (hm : Int) (ls : List Alive.Label) (t : Alive.State) (h : Steps (Alive.Step hm) {} ls t) :
    (∃ r n, ReaderRounds r ∧ 0 < n ∧ ls.filter isReader ∈ [r, r ++ [.read n], r ++ [.read n, .update]]) ∧ readBytes ls ≤ arrivedBytes ls ∧ ∀ a b n, ls = a ++ .read n :: b → Label.firstUpdate ∈ a := by
  obtain ⟨⟨r, hr, h1⟩, h2, _, h4, _, _⟩ := readerInv h
  refine ⟨?_, by omega, h4⟩
  cases hp : t.reader <;> rw [hp] at h1
  · exact ⟨r, 1, hr, by decide, by rw [h1]; simp⟩
  · obtain ⟨n, hn, h1⟩ := h1
    exact ⟨r, n, hr, hn, by rw [h1]; simp⟩
  · obtain ⟨n, hn, h1⟩ := h1
    exact ⟨r, n, hr, hn, by rw [h1]; simp⟩

/-- If the reader keeps up, that is, all that has arrived has been read and noted when the verdict is reached, a peer whose last bytes arrived less than `HeartbeatMax` ago is not declared dead. -/
theorem C43_kept_up (hm : Int) (h0 : 0 ≤ hm) (h1 : hm * 1000000000 < 2 ^ 63) (ls : List Alive.Label) (b : Bool) (t : Alive.State) (h : Steps (Alive.Step hm) {} (ls ++ [.verdict b]) t)
    (hst : Label.stop ∉ ls) (hall : readBytes ls = arrivedBytes ls) (hn : allNoted ls) (x : Int) (hx : sinceArrival ls = some x) (hlt : x < hm * 1000000000) : b = true := by
  obtain ⟨pre, mid, e, _, hb⟩ := C43_partial hm h0 h1 ls b t h
  obtain ⟨s, hs, _⟩ := Steps.unsnoc h
  obtain ⟨⟨r, hr, g1⟩, g2, _, _, g5, _⟩ := readerInv hs
  have hgot : s.reader ≠ .got := by
    intro hg
    rw [hg] at g1
    obtain ⟨n, _, g1⟩ := g1
    obtain ⟨a, c, hac, ha, hc⟩ := List.filter_eq_append_iff.1 g1
    obtain ⟨a2, c2, hc2, hna, hrd, hnc⟩ := List.filter_eq_cons_iff.1 hc
    have hu := hn (a ++ a2) c2 n (by rw [hac, hc2]; simp)
    have := List.filter_eq_nil_iff.1 hnc _ hu
    exact this rfl
  obtain ⟨y, hy, hyx⟩ := g5 (by omega) hgot x hx
  cases b with
  | true => rfl
  | false =>
    rcases hb.1 rfl with hb | hb
    · exact absurd (by rw [e]; exact List.mem_append_left _ hb) hst
    · have := hb y hy
      omega

/-- A limit of 10 s; the peer sends a byte every 4 s. The first one is read at once, but handing it on takes long (the worker's queue is full), and the other
bytes wait in the socket. At the check after 12 s the connection is declared dead. -/
def stalledReader : List Alive.Label :=
  [.hbStart, .firstUpdate, .arrive 1, .read 1, .update, .advance 4000000000, .arrive 1, .advance 4000000000, .arrive 1, .advance 4000000000, .arrive 1,
    .checkBegin]

/-- It is not true that a peer that sends at least once per `HeartbeatMax` is never declared dead: in some execution, without any stop, every stretch of 4 s
contains an arrival, the limit is 10 s, and the verdict is dead. -/
theorem C43_refuted : ∃ ls t, Steps (Alive.Step 10) {} (ls ++ [.verdict false]) t ∧ Label.stop ∉ ls ∧
    ∀ k, timeOf (ls.drop k) ≥ 4000000000 → Label.arrive 1 ∈ ls.drop k := by
  refine ⟨stalledReader, _, .cons (.hbStart _ rfl) (.cons (.firstUpdate _ nofun rfl) (.cons (.arrive _ 1 (by decide)) (.cons (.read _ 1 rfl rfl (by decide) (by decide))
    (.cons (.update _ rfl) (.cons (.advance _ _) (.cons (.arrive _ 1 (by decide)) (.cons (.advance _ _) (.cons (.arrive _ 1 (by decide)) (.cons (.advance _ _)
    (.cons (.arrive _ 1 (by decide)) (.cons (.checkBegin _ rfl) (.cons (.verdictTime _ rfl) (.nil _))))))))))))), by decide, ?_⟩
  intro k
  by_cases hk : k < 13
  · have : ∀ k, k < 13 → timeOf (stalledReader.drop k) ≥ 4000000000 → Label.arrive 1 ∈ stalledReader.drop k := by decide +kernel
    exact this k hk
  · rw [List.drop_eq_nil_of_le (by show 12 ≤ k; omega)]
    intro h
    have : timeOf [] = 0 := rfl
    rw [this] at h
    omega

/-- Both verdicts occur: alive 3 s after data, dead 10 s after it. -/
example : ∃ t, Steps (Alive.Step 10) {} ([.hbStart, .firstUpdate, .advance 9000000000, .arrive 5, .read 5, .update, .advance 3000000000, .checkBegin] ++ [.verdict true]) t := by
  refine ⟨_, .cons (.hbStart _ rfl) (.cons (.firstUpdate _ nofun rfl) (.cons (.advance _ _) (.cons (.arrive _ 5 (by decide)) (.cons (.read _ 5 rfl rfl (by decide) (by decide))
    (.cons (.update _ rfl) (.cons (.advance _ _) (.cons (.checkBegin _ rfl) (.cons (.verdictTime _ rfl) (.nil _)))))))))⟩

example : silentFor [.hbStart, .firstUpdate, .advance 9000000000, .arrive 5, .read 5, .update, .advance 3000000000, .checkBegin] = some 3000000000 := by decide +kernel

example : ∃ t, Steps (Alive.Step 10) {} ([.hbStart, .firstUpdate, .advance 10000000000, .checkBegin] ++ [.verdict false]) t := by
  refine ⟨_, .cons (.hbStart _ rfl) (.cons (.firstUpdate _ nofun rfl) (.cons (.advance _ _) (.cons (.checkBegin _ rfl) (.cons (.verdictTime _ rfl) (.nil _)))))⟩

/-- The hypotheses of `C43_kept_up` hold of an execution in which two pieces arrive and are read together. -/
example : ∃ t, Steps (Alive.Step 10) {} ([.hbStart, .firstUpdate, .advance 9000000000, .arrive 5, .arrive 2, .read 7, .update, .advance 3000000000, .checkBegin] ++ [.verdict true]) t ∧
    sinceArrival [.hbStart, .firstUpdate, .advance 9000000000, .arrive 5, .arrive 2, .read 7, .update, .advance 3000000000, .checkBegin] = some 3000000000 ∧
    allNoted [.hbStart, .firstUpdate, .advance 9000000000, .arrive 5, .arrive 2, .read 7, .update, .advance 3000000000, .checkBegin] := by
  refine ⟨_, .cons (.hbStart _ rfl) (.cons (.firstUpdate _ nofun rfl) (.cons (.advance _ _) (.cons (.arrive _ 5 (by decide)) (.cons (.arrive _ 2 (by decide)) (.cons (.read _ 7 rfl rfl (by decide) (by decide))
    (.cons (.update _ rfl) (.cons (.advance _ _) (.cons (.checkBegin _ rfl) (.cons (.verdictTime _ rfl) (.nil _)))))))))), by decide +kernel, ?_⟩
  intro a b n e
  have : ∀ a ls b : List Alive.Label, ls = a ++ .read n :: b → b = ls.drop (a.length + 1) := by
    intro a ls b e
    rw [e, List.drop_append, List.drop_eq_nil_of_le (by omega)]
    simp
  have hb := this _ _ _ e
  have hl : Label.read n ∈ ([.hbStart, .firstUpdate, .advance 9000000000, .arrive 5, .arrive 2, .read 7, .update, .advance 3000000000, .checkBegin] : List Alive.Label).drop a.length := by rw [e]; simp
  by_cases ha : a.length ≤ 5
  · rw [hb]
    generalize a.length = k at ha
    have : ∀ k, k ≤ 5 → Label.update ∈ ([.hbStart, .firstUpdate, .advance 9000000000, .arrive 5, .arrive 2, .read 7, .update, .advance 3000000000, .checkBegin] : List Alive.Label).drop (k + 1) := by decide
    exact this k ha
  · exfalso
    have h6 : a.length = 6 + (a.length - 6) := by omega
    rw [h6, ← List.drop_drop] at hl
    have := List.mem_of_mem_drop hl
    simp at this

end Zinx.Props
