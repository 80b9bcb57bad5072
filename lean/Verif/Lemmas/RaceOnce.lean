import Verif.Lemmas.Race

/-!
A field that is tested and set once with a lock held, and read without the lock by a goroutine that is started after the setting. In a copy of the execution this goroutine reads another field instead;
there the lockset analysis applies, and the order of events is the same.
-/

namespace Zinx.Race

variable {F L : Type} [DecidableEq F] [DecidableEq L]

/-- Reads of `f` become reads of `g`. -/
def Act.rename (f g : F) : Act F L → Act F L
  | .rd h => .rd (if h = f then g else h)
  | a => a

def Code.rename (f g : F) : Code F L → Code F L
  | .rd h => .rd (if h = f then g else h)
  | .seq c d => .seq (c.rename f g) (d.rename f g)
  | .alt c d => .alt (c.rename f g) (d.rename f g)
  | .star c => .star (c.rename f g)
  | c => c

omit [DecidableEq L] in
theorem lang_rename (f g : F) {c : Code F L} {w : List (Act F L)} (h : Lang c w) : Lang (c.rename f g) (w.map (Act.rename f g)) := by
  induction h with
  | skip => exact .skip
  | rd h => exact .rd _
  | wr h => exact .wr _
  | acq l x => exact .acq _ _
  | rel l x => exact .rel _ _
  | go t => exact .go _
  | snd m => exact .snd _
  | rcv m => exact .rcv _
  | atom v => exact .atom _
  | seq _ _ h1 h2 => rw [List.map_append]; exact .seq h1 h2
  | altl _ h => exact .altl h
  | altr _ h => exact .altr h
  | stop => exact .stop
  | more _ _ h1 h2 => rw [List.map_append]; exact .more h1 h2

/-- The copy: goroutine `w` reads `g` instead of `f`. -/
def renameEvent (f g : F) (w : Nat) (e : Nat × Act F L) : Nat × Act F L := (e.1, if e.1 = w then e.2.rename f g else e.2)

def renameCode (f g : F) (w : Nat) (code : Nat → Code F L) : Nat → Code F L := fun t => if t = w then (code t).rename f g else code t

omit [DecidableEq L] in
theorem rename_rel {f g : F} {a : Act F L} {l : L} {x : Bool} : a.rename f g = .rel l x ↔ a = .rel l x := by cases a <;> simp [Act.rename]

omit [DecidableEq L] in
theorem rename_acq {f g : F} {a : Act F L} {l : L} {x : Bool} : a.rename f g = .acq l x ↔ a = .acq l x := by cases a <;> simp [Act.rename]

omit [DecidableEq L] in
theorem rename_fork {f g : F} {a : Act F L} {t : Nat} : a.rename f g = .fork t ↔ a = .fork t := by cases a <;> simp [Act.rename]

omit [DecidableEq L] in
theorem rename_snd {f g : F} {a : Act F L} {t : Nat} : a.rename f g = .snd t ↔ a = .snd t := by cases a <;> simp [Act.rename]

omit [DecidableEq L] in
theorem rename_rcv {f g : F} {a : Act F L} {t : Nat} : a.rename f g = .rcv t ↔ a = .rcv t := by cases a <;> simp [Act.rename]

omit [DecidableEq L] in
theorem rename_atom {f g : F} {a : Act F L} {t : Nat} : a.rename f g = .atom t ↔ a = .atom t := by cases a <;> simp [Act.rename]

omit [DecidableEq L] in
theorem event_eq {f g : F} {w : Nat} {tr : Trace F L} {i t : Nat} {a : Act F L} (h : (tr.map (renameEvent f g w))[i]? = some (t, a)) : ∃ b, tr[i]? = some (t, b) ∧ a = if t = w then b.rename f g else b := by
  rw [List.getElem?_map] at h
  obtain ⟨⟨u, b⟩, h1, h2⟩ := Option.map_eq_some_iff.1 h
  simp only [renameEvent, Prod.mk.injEq] at h2
  obtain ⟨rfl, rfl⟩ := h2
  exact ⟨b, h1, rfl⟩

omit [DecidableEq L] in
theorem edge_rename {f g : F} {w : Nat} {tr : Trace F L} {i j : Nat} (h : Edge false (tr.map (renameEvent f g w)) i j) : Edge false tr i j := by
  obtain ⟨hij, t, a, u, b, hi, hj, hr⟩ := h
  obtain ⟨a', ha, rfl⟩ := event_eq hi
  obtain ⟨b', hb, rfl⟩ := event_eq hj
  refine ⟨hij, t, a', u, b', ha, hb, ?_⟩
  rcases hr with h | ⟨l, x, y, h1, h2, h3⟩ | h | ⟨m, h1, h2⟩ | ⟨h, _⟩
  · exact .inl h
  · refine .inr (.inl ⟨l, x, y, ?_, ?_, h3⟩)
    · split at h1
      · exact rename_rel.1 h1
      · exact h1
    · split at h2
      · exact rename_acq.1 h2
      · exact h2
  · refine .inr (.inr (.inl ?_))
    split at h
    · exact rename_fork.1 h
    · exact h
  · refine .inr (.inr (.inr (.inl ⟨m, ?_, ?_⟩)))
    · split at h1
      · exact rename_snd.1 h1
      · exact h1
    · split at h2
      · exact rename_rcv.1 h2
      · exact h2
  · cases h

omit [DecidableEq L] in
theorem hb_rename {f g : F} {w : Nat} {tr : Trace F L} {i j : Nat} (h : HB false (tr.map (renameEvent f g w)) i j) : HB false tr i j := by
  induction h with
  | one h => exact .one (edge_rename h)
  | trans _ _ h1 h2 => exact .trans h1 h2

theorem lockStep_rename {f g : F} {h : Held L} {t : Nat} {a : Act F L} : lockStep h t (a.rename f g) = lockStep h t a := by cases a <;> rfl

theorem locks_rename {f g : F} {w : Nat} : ∀ {tr : Trace F L} {h : Held L}, locks h (tr.map (renameEvent f g w)) = locks h tr
  | [], _ => rfl
  | (t, a) :: tr, h => by
    simp only [List.map_cons, renameEvent, locks]
    have : lockStep h t (if t = w then a.rename f g else a) = lockStep h t a := by
      split
      · exact lockStep_rename
      · rfl
    rw [this]
    congr 1
    funext h'
    exact locks_rename

omit [DecidableEq L] in
theorem proj_rename {f g : F} {w t : Nat} {tr : Trace F L} : proj t (tr.map (renameEvent f g w)) = if t = w then (proj t tr).map (Act.rename f g) else proj t tr := by
  induction tr with
  | nil => simp [proj]
  | cons e tr ih =>
    obtain ⟨u, a⟩ := e
    unfold proj at ih ⊢
    by_cases h : u = t
    · subst h
      by_cases hw : u = w
      · simp_all [renameEvent]
      · simp_all [renameEvent]
    · have h' : ∀ v, t = v → u ≠ v := fun v hv => hv ▸ h
      by_cases hw : t = w
      · have := h' w hw
        simp_all [renameEvent]
      · simp_all [renameEvent]

theorem execution_rename (f g : F) (w : Nat) {code : Nat → Code F L} {tr : Trace F L} (he : Execution code tr) : Execution (renameCode f g w code) (tr.map (renameEvent f g w)) := by
  obtain ⟨⟨h, h1⟩, h2, h3, h4⟩ := he
  refine ⟨⟨h, by rw [locks_rename]; exact h1⟩, fun t => ?_, ?_, ?_⟩
  · obtain ⟨rest, hl⟩ := h2 t
    rw [proj_rename]
    unfold renameCode
    split
    · refine ⟨rest.map (Act.rename f g), ?_⟩
      rw [← List.map_append]
      exact lang_rename f g hl
    · exact ⟨rest, hl⟩
  · intro i j t u a hi hj
    obtain ⟨b, hb, e⟩ := event_eq hi
    obtain ⟨c, hc, _⟩ := event_eq hj
    refine h3 i j t u c ?_ hc
    split at e
    · rw [hb, rename_fork.1 e.symm]
    · rw [hb, ← e]
  · intro j u m hj
    obtain ⟨b, hb, e⟩ := event_eq hj
    have : tr[j]? = some (u, .rcv m) := by
      split at e
      · rw [hb, rename_rcv.1 e.symm]
      · rw [hb, ← e]
    obtain ⟨i, t, h5, h6⟩ := h4 j u m this
    refine ⟨i, t, h5, ?_⟩
    rw [List.getElem?_map, h6]
    simp only [Option.map_some, renameEvent]
    congr 2
    split <;> rfl

/-- Whoever sets `f` has done nothing since it read `f`, and nobody had set `f` before that read: `if x.f == nil { x.f = … }`. -/
def TestedFirst (tr : Trace F L) (f : F) : Prop :=
  ∀ j t : Nat, tr[j]? = some (t, Act.wr f) → ∃ r : Nat, r < j ∧ tr[r]? = some (t, Act.rd f) ∧ (∀ (k : Nat) (a : Act F L), r < k → k < j → tr[k]? ≠ some (t, a)) ∧ ∀ k u : Nat, k < r → tr[k]? ≠ some (u, Act.wr f)

/-- Goroutine `w` is started by one that has set `f`. -/
def StartedWhenSet (tr : Trace F L) (f : F) (w : Nat) : Prop :=
  ∀ (j : Nat) (a : Act F L), tr[j]? = some (w, a) → ∃ i k u : Nat, i < k ∧ k < j ∧ tr[i]? = some (u, Act.wr f) ∧ tr[k]? = some (u, Act.fork w)

/-- A field that is set by whoever has just seen, with the lock held, that it is not set yet, and that is accessed with the lock held but for a goroutine `w` that is started by who has set it. -/
theorem once_race_free {l : L} {f g : F} {w : Nat} {code : Nat → Code F L} {tr : Trace F L} (hg : Guarded l f (renameCode f g w code)) (hw : checkBy (noWrite f) (code w) () ≠ none)
    (he : Execution code tr)
    (hnil : TestedFirst tr f) (hstart : StartedWhenSet tr f w) : RaceFree tr f := by
  have hw' : ∀ i : Nat, tr[i]? ≠ some (w, Act.wr f) := by
    intro i hi
    obtain ⟨_, e⟩ := stateBy_some (step := noWrite (L := L) f) (checkBy_follow (fun _ _ => ⟨rfl, rfl, rfl⟩) hw) he (i + 1)
    obtain ⟨_, e0⟩ := stateBy_some (step := noWrite (L := L) f) (checkBy_follow (fun _ _ => ⟨rfl, rfl, rfl⟩) hw) he i
    rw [stateBy_own hi, e0] at e
    simp [noWrite] at e
  have he' := execution_rename f g w he
  have copy : ∀ {i t : Nat} {a : Act F L}, t ≠ w → tr[i]? = some (t, a) → (tr.map (renameEvent f g w))[i]? = some (t, a) := by
    intro i t a ht hi
    rw [List.getElem?_map, hi]
    simp [renameEvent, ht]
  -- it is set once
  have once : ∀ i j t u : Nat, tr[i]? = some (t, Act.wr f) → tr[j]? = some (u, Act.wr f) → i < j → False := by
    intro i j t u hi hj hij
    obtain ⟨r, hr, hrd, hno, hbefore⟩ := hnil j u hj
    have hri : r < i := by
      rcases Nat.lt_trichotomy i r with h | h | h
      · exact absurd hi (hbefore i t h)
      · subst h; rw [hi] at hrd; cases hrd
      · exact h
    have htu : t ≠ u := fun h => hno i _ hri hij (h ▸ hi)
    have htw : t ≠ w := fun h => hw' i (h ▸ hi)
    have huw : u ≠ w := fun h => hw' j (h ▸ hj)
    -- `u` holds the lock from `r` to `j`
    have hold : ∀ k, r < k → k ≤ j → stateAt l f (tr.map (renameEvent f g w)) u k = stateAt l f (tr.map (renameEvent f g w)) u j := by
      intro k hk hkj
      have : ∀ d, k + d ≤ j → stateAt l f (tr.map (renameEvent f g w)) u (k + d) = stateAt l f (tr.map (renameEvent f g w)) u k := by
        intro d
        induction d with
        | zero => intro _; rfl
        | succ d ih =>
          intro hd
          rw [← ih (by omega)]
          have hlen : k + d < tr.length := by
            have := (List.getElem?_eq_some_iff.1 hj).1
            omega
          obtain ⟨⟨v, b⟩, hv⟩ : ∃ e, tr[k + d]? = some e := ⟨_, List.getElem?_eq_getElem hlen⟩
          have hvu : v ≠ u := fun h => hno (k + d) b (by omega) (by omega) (h ▸ hv)
          have : (tr.map (renameEvent f g w))[k + d]? = some (v, if v = w then b.rename f g else b) := by rw [List.getElem?_map, hv]; rfl
          exact stateAt_other this hvu
      have := this (j - k) (by omega)
      rw [show k + (j - k) = j by omega] at this
      exact this.symm
    have h1 := (holds_at hg he' (copy huw hj)).1 rfl
    have h2 := (holds_at hg he' (copy htw hi)).1 rfl
    rw [← hold i hri (by omega)] at h1
    exact htu (exclusive hg he' h2 h1 rfl)
  have unique : ∀ i j t u : Nat, tr[i]? = some (t, Act.wr f) → tr[j]? = some (u, Act.wr f) → i = j := by
    intro i j t u hi hj
    rcases Nat.lt_trichotomy i j with h | h | h
    · exact (once i j t u hi hj h).elim
    · exact h
    · exact (once j i u t hj hi h).elim
  rintro i j ⟨hij, t, a, u, b, hi, hj, htu, hc⟩
  have wrs : ∀ {c : Act F L}, c.writes f → c = .wr f := by
    intro c hc
    cases c <;> simp only [Act.writes] at hc
    rw [hc]
  by_cases htw : t = w
  · -- the goroutine reads after the setting
    subst htw
    rcases hc with ⟨h, _⟩ | ⟨_, h⟩
    · rw [wrs h] at hi; exact absurd hi (hw' i)
    · rw [wrs h] at hj
      obtain ⟨p, k, v, h1, h2, h3, _⟩ := hstart i a hi
      have := unique p j v u h3 hj
      omega
  · by_cases huw : u = w
    · subst huw
      rcases hc with ⟨h, _⟩ | ⟨_, h⟩
      · rw [wrs h] at hi
        obtain ⟨p, k, v, h1, h2, h3, h4⟩ := hstart j b hj
        obtain rfl := unique p i v t h3 hi
        rw [h3] at hi
        cases hi
        exact .trans (.one ⟨h1, _, _, _, _, h3, h4, .inl rfl⟩) (.one ⟨h2, _, _, _, _, h4, hj, .inr (.inr (.inl rfl))⟩)
      · rw [wrs h] at hj; exact absurd hj (hw' j)
    · exact hb_rename (race_free hg he' i j ⟨hij, t, a, u, b, copy htw hi, copy huw hj, htu, hc⟩)

end Zinx.Race
