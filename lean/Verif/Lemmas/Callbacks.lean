import Verif.Model.Callbacks

/-! # Lemmas about the callback list -/

namespace Zinx.Callbacks

section
variable {α : Type}

/-- The pointers from `p` on are `ps`, the last one's `next` being nil. -/
def Seg (heap : Nat → Node α) : Option Nat → List Nat → Prop
  | p, [] => p = none
  | p, a :: as => p = some a ∧ Seg heap (heap a).next as

structure Inv (s : State α) (ps : List Nat) : Prop where
  seg : Seg s.heap s.first ps
  nodup : ps.Nodup
  bound : ∀ a ∈ ps, a < s.size
  last : s.last = ps.getLast?

theorem seg_congr {h1 h2 : Nat → Node α} : ∀ {ps : List Nat} {p : Option Nat}, (∀ a ∈ ps, (h1 a).next = (h2 a).next) → Seg h1 p ps → Seg h2 p ps := by
  intro ps
  induction ps with
  | nil => intro p _ h; exact h
  | cons a as ih =>
    intro p he h
    refine ⟨h.1, ?_⟩
    rw [← he a List.mem_cons_self]
    exact ih (fun b hb => he b (List.mem_cons_of_mem _ hb)) h.2

/-- What an entry of the list is, next pointers aside. -/
def entry (heap : Nat → Node α) (a : Nat) : α × α × Nat := ((heap a).handler, (heap a).key, (heap a).call)

theorem entry_setNext (heap : Nat → Node α) (p : Nat) (n : Option Nat) (a : Nat) : entry (setNext heap p n) a = entry heap a := by
  unfold entry setNext; dsimp only; split <;> rfl

theorem entry_alloc (heap : Nat → Node α) (p : Nat) (x : Node α) {a : Nat} (h : a ≠ p) : entry (alloc heap p x) a = entry heap a := by
  unfold entry alloc; rw [if_neg h]

theorem next_setNext_same (heap : Nat → Node α) (p : Nat) (n : Option Nat) : (setNext heap p n p).next = n := by
  unfold setNext; dsimp only; rw [if_pos rfl]

theorem next_setNext_other (heap : Nat → Node α) {p a : Nat} (n : Option Nat) (h : a ≠ p) : (setNext heap p n a).next = (heap a).next := by
  unfold setNext; dsimp only; rw [if_neg h]

theorem getLast?_mem {ps : List Nat} {l : Nat} (h : ps.getLast? = some l) : ∃ qs, ps = qs ++ [l] := by
  rw [List.getLast?_eq_some_iff] at h
  exact h

/-- Redirecting the last `next` of a segment appends to it. -/
theorem seg_snoc {heap : Nat → Node α} {l b : Nat} (hb : (heap b).next = none) : ∀ {qs : List Nat} {p : Option Nat},
    (qs ++ [l]).Nodup → b ∉ qs ++ [l] → Seg heap p (qs ++ [l]) → Seg (setNext heap l (some b)) p (qs ++ [l] ++ [b]) := by
  intro qs
  induction qs with
  | nil =>
    intro p _ hnb h
    refine ⟨h.1, ?_⟩
    have hne : b ≠ l := fun e => hnb (by rw [e]; simp)
    refine ⟨next_setNext_same _ _ _, ?_⟩
    show (setNext heap l (some b) b).next = none
    rw [next_setNext_other _ _ hne, hb]
  | cons a as ih =>
    intro p hn hnb h
    refine ⟨h.1, ?_⟩
    have ha : a ≠ l := by
      intro e
      have := hn
      rw [List.cons_append, List.nodup_cons] at this
      exact this.1 (by rw [e]; simp)
    rw [next_setNext_other _ _ ha]
    exact ih (by rw [List.cons_append, List.nodup_cons] at hn; exact hn.2) (fun hm => hnb (List.mem_cons_of_mem _ hm)) h.2

theorem add_spec {s : State α} {ps : List Nat} (hi : Inv s ps) (h k : α) (c : Nat) :
    ∃ s', s.add h k (some c) = some s' ∧ Inv s' (ps ++ [s.size]) ∧ (ps ++ [s.size]).map (entry s'.heap) = ps.map (entry s.heap) ++ [(h, k, c)] := by
  unfold State.add
  dsimp only
  have hfresh : s.size ∉ ps := fun hm => Nat.lt_irrefl _ (hi.bound _ hm)
  have hent : ∀ heap : Nat → Node α, (∀ a ∈ ps, entry heap a = entry s.heap a) → entry heap s.size = (h, k, c) →
      (ps ++ [s.size]).map (entry heap) = ps.map (entry s.heap) ++ [(h, k, c)] := by
    intro heap h1 h2
    rw [List.map_append, List.map_congr_left h1, List.map_singleton, h2]
  have hal : entry (alloc s.heap s.size ⟨h, k, c, none⟩) s.size = (h, k, c) := by
    unfold entry alloc; rw [if_pos rfl]
  have haln : (alloc s.heap s.size ⟨h, k, c, none⟩ s.size).next = none := by
    unfold alloc; rw [if_pos rfl]
  have hal2 : ∀ a ∈ ps, entry (alloc s.heap s.size ⟨h, k, c, none⟩) a = entry s.heap a := fun a ha => entry_alloc _ _ _ (fun e => hfresh (e ▸ ha))
  have hb : ∀ a ∈ ps ++ [s.size], a < s.size + 1 := by
    intro a ha
    rw [List.mem_append, List.mem_singleton] at ha
    rcases ha with ha | ha
    · exact Nat.lt_succ_of_lt (hi.bound a ha)
    · omega
  have hn : (ps ++ [s.size]).Nodup := by
    rw [List.nodup_append]
    exact ⟨hi.nodup, by simp, fun a ha b hb e => by rw [List.mem_singleton] at hb; exact hfresh (by rw [← hb, ← e]; exact ha)⟩
  cases hf : s.first with
  | none =>
    have hp : ps = [] := by
      cases ps with
      | nil => rfl
      | cons a as => have := hi.seg.1; rw [hf] at this; cases this
    subst hp
    exact ⟨_, rfl, ⟨⟨rfl, haln⟩, by simp, hb, rfl⟩, hent _ hal2 hal⟩
  | some f =>
    dsimp only
    have hne : ps ≠ [] := by
      intro e
      have := hi.seg
      rw [e] at this
      have h2 : s.first = none := this
      rw [hf] at h2; cases h2
    obtain ⟨l, hl⟩ : ∃ l, ps.getLast? = some l := by
      cases e : ps.getLast? with
      | none => rw [List.getLast?_eq_none_iff] at e; exact absurd e hne
      | some l => exact ⟨l, rfl⟩
    obtain ⟨qs, hq⟩ := getLast?_mem hl
    rw [hi.last, hl]
    refine ⟨_, rfl, ⟨?_, hn, hb, by simp⟩, ?_⟩
    · dsimp only
      rw [← hf]
      have hseg : Seg (alloc s.heap s.size ⟨h, k, c, none⟩) s.first ps := by
        refine seg_congr ?_ hi.seg
        intro a ha
        have hne2 : a ≠ s.size := fun e => hfresh (e ▸ ha)
        unfold alloc
        rw [if_neg hne2]
      rw [hq] at hseg ⊢
      exact seg_snoc haln (hq ▸ hi.nodup) (hq ▸ hfresh) hseg
    · apply hent
      · intro a ha
        dsimp only
        rw [entry_setNext]; exact hal2 a ha
      · dsimp only
        rw [entry_setNext]; exact hal

variable [DecidableEq α]

/-- Does an entry have this handler and key? -/
def isMatch (h k : α) (e : α × α × Nat) : Bool := decide (e.1 = h ∧ e.2.1 = k)

omit [DecidableEq α] in
/-- Removing the element after `pre`. -/
theorem seg_skip {heap : Nat → Node α} {q c : Nat} {cs : List Nat} : ∀ {pre : List Nat} {p : Option Nat},
    (pre ++ q :: c :: cs).Nodup → Seg heap p (pre ++ q :: c :: cs) → Seg (setNext heap q (heap c).next) p (pre ++ q :: cs) := by
  intro pre
  induction pre with
  | nil =>
    intro p hn h
    refine ⟨h.1, ?_⟩
    rw [next_setNext_same]
    have hn' : q ∉ c :: cs := (List.nodup_cons.mp hn).1
    refine seg_congr ?_ h.2.2
    intro a ha
    rw [next_setNext_other]
    intro e
    exact hn' (by rw [← e]; exact List.mem_cons_of_mem _ ha)
  | cons a as ih =>
    intro p hn h
    refine ⟨h.1, ?_⟩
    have ha : a ≠ q := by
      intro e
      rw [List.cons_append, List.nodup_cons] at hn
      exact hn.1 (by rw [e]; simp)
    rw [next_setNext_other _ _ ha]
    exact ih (by rw [List.cons_append, List.nodup_cons] at hn; exact hn.2) h.2

omit [DecidableEq α] in
theorem seg_drop {heap : Nat → Node α} : ∀ {pre cs : List Nat} {p : Option Nat}, Seg heap p (pre ++ cs) → ∃ p', Seg heap p' cs := by
  intro pre
  induction pre with
  | nil => intro cs p h; exact ⟨p, h⟩
  | cons a as ih => intro cs p h; exact ih h.2

theorem removeLoop_spec {s : State α} (h k : α) : ∀ (cs pre : List Nat) (fuel : Nat) (cur : Option Nat), Inv s (pre ++ cs) → Seg s.heap cur cs →
    cs.length ≤ fuel → (∀ a ∈ pre, isMatch h k (entry s.heap a) = false) →
    ∃ s' ps', removeLoop s h k fuel pre.getLast? cur = some s' ∧ Inv s' ps' ∧
      ps'.map (entry s'.heap) = (((pre ++ cs).map (entry s.heap)).eraseP (isMatch h k)) := by
  intro cs
  induction cs with
  | nil =>
    intro pre fuel cur hi hc _ hpre
    have hc' : cur = none := hc
    subst hc'
    refine ⟨s, pre ++ [], by cases fuel <;> rfl, hi, ?_⟩
    rw [List.append_nil, List.eraseP_of_forall_not]
    intro e he
    rw [List.mem_map] at he
    obtain ⟨a, ha, rfl⟩ := he
    rw [hpre a ha]; nofun
  | cons c cs ih =>
    intro pre fuel cur hi hc hf hpre
    obtain ⟨hc1, hc2⟩ := hc
    subst hc1
    match fuel, hf with
    | fuel + 1, hf =>
      unfold removeLoop
      by_cases hm : (s.heap c).handler = h ∧ (s.heap c).key = k
      · rw [if_pos hm]
        have hmatch : isMatch h k (entry s.heap c) = true := decide_eq_true hm
        have herase : ((pre ++ c :: cs).map (entry s.heap)).eraseP (isMatch h k) = (pre ++ cs).map (entry s.heap) := by
          rw [List.map_append, List.eraseP_append_right, List.map_cons, List.eraseP_cons_of_pos hmatch, ← List.map_append]
          intro e he
          rw [List.mem_map] at he
          obtain ⟨a, ha, rfl⟩ := he
          rw [hpre a ha]; nofun
        have hnd : (pre ++ cs).Nodup := hi.nodup.sublist (List.Sublist.append_left (List.sublist_cons_self _ _) _)
        have hbd : ∀ a ∈ pre ++ cs, a < s.size := fun a ha => hi.bound a (by
          rw [List.mem_append] at ha ⊢
          rcases ha with ha | ha
          · exact .inl ha
          · exact .inr (List.mem_cons_of_mem _ ha))
        have hlast : (if s.last = some c then pre.getLast? else s.last) = (pre ++ cs).getLast? := by
          cases cs with
          | nil =>
            have : s.last = some c := by rw [hi.last]; simp
            rw [if_pos this, List.append_nil]
          | cons d ds =>
            have e : s.last = (pre ++ d :: ds).getLast? := by rw [hi.last, List.getLast?_append, List.getLast?_append, List.getLast?_cons_cons]
            rw [if_neg, e]
            rw [e, List.getLast?_append]
            intro hx
            have hmem : c ∈ d :: ds := by
              cases hg : (d :: ds).getLast? with
              | none => rw [List.getLast?_eq_none_iff] at hg; cases hg
              | some g =>
                rw [hg] at hx
                have : g = c := by simpa using hx
                rw [← this]
                exact List.mem_of_getLast? hg
            have := hi.nodup
            rw [List.nodup_append] at this
            exact (List.nodup_cons.mp this.2.1).1 hmem
        cases hp : pre with
        | nil =>
          subst hp
          have hfst : s.first = some c := hi.seg.1
          rw [if_pos hfst]
          refine ⟨_, cs, rfl, ⟨hc2, hnd, hbd, hlast⟩, ?_⟩
          exact herase.symm
        | cons p0 pre0 =>
          have hfst : s.first ≠ some c := by
            intro e
            have h1 := hi.seg
            rw [hp] at h1
            have h2 := h1.1
            rw [e] at h2
            injection h2 with h2
            have h3 := hi.nodup
            rw [hp, List.cons_append, List.nodup_cons] at h3
            exact h3.1 (by rw [← h2]; simp)
          obtain ⟨q, hq⟩ : ∃ q, pre.getLast? = some q := by
            cases e : pre.getLast? with
            | none => rw [List.getLast?_eq_none_iff] at e; rw [e] at hp; cases hp
            | some q => exact ⟨q, rfl⟩
          obtain ⟨pr, hpr⟩ := getLast?_mem hq
          rw [if_neg hfst, ← hp]
          refine ⟨⟨setNext s.heap q (s.heap c).next, s.size, s.first, if s.last = some c then pre.getLast? else s.last⟩, pre ++ cs, ?_,
            ⟨?_, hnd, hbd, hlast⟩, ?_⟩
          · rw [hq]
          · dsimp only
            have h1 := hi.seg
            have h2 := hi.nodup
            rw [hpr, List.append_assoc, List.singleton_append] at h1 h2 ⊢
            exact seg_skip h2 h1
          · rw [herase]
            apply List.map_congr_left
            intro a _
            exact entry_setNext _ _ _ _
      · rw [if_neg hm]
        have hl : pre ++ c :: cs = (pre ++ [c]) ++ cs := by rw [List.append_assoc, List.singleton_append]
        have := ih (pre ++ [c]) fuel (s.heap c).next (hl ▸ hi) hc2 (by simp only [List.length_cons] at hf; omega) (by
          intro a ha
          rw [List.mem_append, List.mem_singleton] at ha
          rcases ha with ha | ha
          · exact hpre a ha
          · rw [ha]; exact decide_eq_false hm)
        rw [List.getLast?_append, ← hl] at this
        exact this

omit [DecidableEq α] in
theorem nodup_length_le : ∀ (n : Nat) (ps : List Nat), ps.Nodup → (∀ a ∈ ps, a < n) → ps.length ≤ n := by
  intro n
  induction n with
  | zero =>
    intro ps _ h
    cases ps with
    | nil => exact Nat.le_refl _
    | cons a as => exact absurd (h a List.mem_cons_self) (Nat.not_lt_zero _)
  | succ n ih =>
    intro ps hn h
    have h1 := ih (ps.erase n) (hn.erase n) (by
      intro a ha
      have h2 := h a (List.mem_of_mem_erase ha)
      have h3 : a ≠ n := by
        intro e
        rw [e] at ha
        exact hn.not_mem_erase ha
      omega)
    have h2 := @List.length_erase Nat _ _ n ps
    split at h2 <;> omega

omit [DecidableEq α] in
theorem length_le_size {s : State α} {ps : List Nat} (hi : Inv s ps) : ps.length ≤ s.size := nodup_length_le _ _ hi.nodup hi.bound

theorem remove_spec {s : State α} {ps : List Nat} (hi : Inv s ps) (h k : α) :
    ∃ s' ps', s.remove h k = some s' ∧ Inv s' ps' ∧ ps'.map (entry s'.heap) = (ps.map (entry s.heap)).eraseP (isMatch h k) :=
  removeLoop_spec h k ps [] s.size s.first hi hi.seg (length_le_size hi) nofun

omit [DecidableEq α] in
theorem invokeLoop_spec {s : State α} (panics : Nat → Bool) : ∀ (ps : List Nat) (fuel : Nat) (cur : Option Nat), Seg s.heap cur ps → ps.length ≤ fuel →
    ∃ done, invokeLoop s panics fuel cur = some done ∧
      ((∀ a ∈ ps, panics (s.heap a).call = false) → done = ps.map fun a => (s.heap a).call) ∧
      (∀ pre a post, ps = pre ++ a :: post → (∀ b ∈ pre, panics (s.heap b).call = false) → panics (s.heap a).call = true →
        done = (pre ++ [a]).map fun a => (s.heap a).call) := by
  intro ps
  induction ps with
  | nil =>
    intro fuel cur hc _
    have hc' : cur = none := hc
    subst hc'
    refine ⟨[], by cases fuel <;> rfl, fun _ => rfl, ?_⟩
    intro pre a post e
    cases pre <;> cases e
  | cons c cs ih =>
    intro fuel cur hc hf
    obtain ⟨hc1, hc2⟩ := hc
    subst hc1
    match fuel, hf with
    | fuel + 1, hf =>
      unfold invokeLoop
      cases hp : panics (s.heap c).call with
      | true =>
        refine ⟨[(s.heap c).call], rfl, ?_, ?_⟩
        · intro h
          rw [h c List.mem_cons_self] at hp; cases hp
        · intro pre a post e hpre ha
          cases pre with
          | nil => injection e with e1 e2; subst e1; rfl
          | cons b bs =>
            injection e with e1 e2
            subst e1
            rw [hpre c List.mem_cons_self] at hp; cases hp
      | false =>
        obtain ⟨done, h1, h2, h3⟩ := ih fuel (s.heap c).next hc2 (by simp only [List.length_cons] at hf; omega)
        refine ⟨(s.heap c).call :: done, by rw [if_neg nofun, h1]; rfl, ?_, ?_⟩
        · intro h
          rw [h2 fun a ha => h a (List.mem_cons_of_mem _ ha)]; rfl
        · intro pre a post e hpre ha
          cases pre with
          | nil => injection e with e1 e2; subst e1; rw [hp] at ha; cases ha
          | cons b bs =>
            injection e with e1 e2
            subst e1
            rw [h3 bs a post e2 (fun b hb => hpre b (List.mem_cons_of_mem _ hb)) ha]
            rfl

omit [DecidableEq α] in
theorem countLoop_spec {s : State α} : ∀ (ps : List Nat) (fuel : Nat) (cur : Option Nat), Seg s.heap cur ps → ps.length ≤ fuel →
    countLoop s fuel cur = some ps.length := by
  intro ps
  induction ps with
  | nil =>
    intro fuel cur hc _
    have hc' : cur = none := hc
    subst hc'
    cases fuel <;> rfl
  | cons c cs ih =>
    intro fuel cur hc hf
    obtain ⟨hc1, hc2⟩ := hc
    subst hc1
    match fuel, hf with
    | fuel + 1, hf =>
      unfold countLoop
      rw [ih fuel _ hc2 (by simp only [List.length_cons] at hf; omega)]
      rfl

end

end Zinx.Callbacks
