import Verif.Spec.Router

/-! # Refinement of slice routers to histories -/

namespace Zinx.Router

open Zinx

variable {H : Type}

/-- The slice is inside its allocated array. -/
def Wf (h : Heap H) (s : Slice) : Prop := s.ptr < h.length ∧ s.len ≤ ((h[s.ptr]?).getD []).length

/-- Arrays below `n` except `p` are the same in both heaps. -/
def SameExcept (h h' : Heap H) (p : Nat) : Prop := ∀ q, q < h.length → q ≠ p → h'[q]? = h[q]?

theorem read_congr {h h' : Heap H} {s : Slice} (e : h'[s.ptr]? = h[s.ptr]?) : read h' s = read h s := by
  unfold read; rw [e]

theorem wf_congr {h h' : Heap H} {s : Slice} (e : h'[s.ptr]? = h[s.ptr]?) (hl : h.length ≤ h'.length) (w : Wf h s) : Wf h' s := by
  unfold Wf at *; rw [e]; exact ⟨by omega, w.2⟩

theorem overwrite_length {α : Type} (a : List α) (off : Nat) (xs : List α) (h : off + xs.length ≤ a.length) :
    (overwrite a off xs).length = a.length := by
  unfold overwrite
  simp only [List.length_append, List.length_take, List.length_drop]; omega

theorem overwrite_take {α : Type} (a : List α) (off : Nat) (xs : List α) (h : off + xs.length ≤ a.length) :
    (overwrite a off xs).take (off + xs.length) = a.take off ++ xs := by
  unfold overwrite
  rw [List.take_of_length_le (l := xs) (by omega), ← List.append_assoc, List.take_append_of_le_length (by simp; omega),
    List.take_of_length_le (by simp; omega)]

theorem append_spec (spare : Nat → Nat) (h : Heap H) (s : Slice) (xs : List (Option H)) (w : Wf h s) :
    let r := append spare h s xs
    read r.1 r.2 = read h s ++ xs ∧ Wf r.1 r.2 ∧ h.length ≤ r.1.length ∧ (r.2.ptr = s.ptr ∨ r.2.ptr = h.length) ∧
      SameExcept h r.1 s.ptr := by
  unfold append
  obtain ⟨w1, w2⟩ := w
  split
  · rename_i hc
    have hget : (h.set s.ptr (overwrite ((h[s.ptr]?).getD []) s.len xs))[s.ptr]? =
        some (overwrite ((h[s.ptr]?).getD []) s.len xs) := by
      rw [List.getElem?_set_self w1]
    refine ⟨?_, ⟨by simpa using w1, ?_⟩, by simp, .inl rfl, ?_⟩
    · unfold read
      simp only [hget, Option.getD_some]
      exact overwrite_take _ _ _ hc
    · simp only [hget, Option.getD_some]
      rw [overwrite_length _ _ _ hc]; exact hc
    · intro q hq hne
      exact List.getElem?_set_ne (Ne.symm hne)
  · have hget : ∀ x, (h ++ [x])[h.length]? = some x := by intro x; simp
    refine ⟨?_, ⟨by simp, ?_⟩, by simp, .inr rfl, ?_⟩
    · unfold read
      simp only [hget, Option.getD_some]
      rw [List.take_append_of_le_length (by simp; omega), List.take_of_length_le (by simp; omega)]
    · simp only [hget, Option.getD_some]
      unfold read
      simp; omega
    · intro q hq hne
      exact List.getElem?_append_left hq

theorem make_spec (h : Heap H) (len cap : Nat) (hl : len ≤ cap) :
    let r := make h len cap
    Wf r.1 r.2 ∧ r.2.ptr = h.length ∧ r.2.len = len ∧ r.1.length = h.length + 1 ∧ ((r.1[r.2.ptr]?).getD []).length = cap ∧
      ∀ q, q < h.length → r.1[q]? = h[q]? := by
  refine ⟨⟨by simp [make], by simp [make]; omega⟩, rfl, rfl, by simp [make], by simp [make], ?_⟩
  intro q hq
  exact List.getElem?_append_left hq

theorem merge_spec (h : Heap H) (a : Slice) (b : List (Option H)) (w : Wf h a) :
    let r := merge h a b
    read r.1 r.2 = read h a ++ b ∧ Wf r.1 r.2 ∧ r.2.ptr = h.length ∧ h.length < r.1.length ∧
      ∀ q, q < h.length → r.1[q]? = h[q]? := by
  have hra : (read h a).length = a.len := by unfold read; rw [List.length_take]; have := w.2; omega
  unfold merge
  simp only
  obtain ⟨n, hn⟩ : ∃ n, n = a.len + b.length := ⟨_, rfl⟩
  rw [← hn]
  have hm := make_spec h n n (by omega)
  obtain ⟨m1, m2, m3, m4, m5, m6⟩ := hm
  generalize hmk : make h n n = r at *
  obtain ⟨h1, m⟩ := r
  simp only at m1 m2 m3 m4 m5 m6 ⊢
  have hread : read h1 a = read h a := read_congr (m6 _ w.1)
  have hp : m.ptr < h1.length := by omega
  -- first copy
  have e1 : ((copyInto h1 m 0 (read h1 a))[m.ptr]?).getD [] = overwrite ((h1[m.ptr]?).getD []) 0 (read h a) := by
    unfold copyInto
    rw [List.getElem?_set_self hp, hread, List.take_of_length_le (by omega)]; rfl
  have l1 : (overwrite ((h1[m.ptr]?).getD []) 0 (read h a)).length = n := by
    rw [overwrite_length _ _ _ (by omega), m5]
  have t1 : (overwrite ((h1[m.ptr]?).getD []) 0 (read h a)).take a.len = read h a := by
    have := overwrite_take ((h1[m.ptr]?).getD []) 0 (read h a) (by omega)
    rw [Nat.zero_add, hra] at this
    simpa using this
  have hlen2 : (copyInto h1 m 0 (read h1 a)).length = h1.length := by simp [copyInto]
  have e2 : ((copyInto (copyInto h1 m 0 (read h1 a)) m a.len b)[m.ptr]?).getD [] =
      overwrite (overwrite ((h1[m.ptr]?).getD []) 0 (read h a)) a.len b := by
    rw [copyInto, List.getElem?_set_self (by rw [hlen2]; exact hp), List.take_of_length_le (by omega), e1]; rfl
  have l2 : (overwrite (overwrite ((h1[m.ptr]?).getD []) 0 (read h a)) a.len b).length = n := by
    rw [overwrite_length _ _ _ (by omega), l1]
  refine ⟨?_, ⟨by simp [copyInto]; omega, by rw [e2, l2]; omega⟩, m2, by simp [copyInto]; omega, ?_⟩
  · have : read (copyInto (copyInto h1 m 0 (read h1 a)) m a.len b) m =
        (overwrite (overwrite ((h1[m.ptr]?).getD []) 0 (read h a)) a.len b).take m.len := by
      rw [read, e2]
    rw [this, m3, hn, overwrite_take _ _ _ (by omega), t1]
  · intro q hq
    have hne : m.ptr ≠ q := by omega
    unfold copyInto
    rw [List.getElem?_set_ne hne, List.getElem?_set_ne hne]
    exact m6 q hq

/-- Abstract state. -/
structure Abs (H : Type) where
  global : List (Option H)
  groups : List (UInt32 × UInt32 × List (Option H))
  routes : UInt32 → Option (List (Option H))

/-- The concrete state represents the abstract one, without harmful sharing of arrays. -/
structure Rep (st : State H) (a : Abs H) : Prop where
  null : st.heap[0]? = some []
  gwf : Wf st.heap st.handlers
  gpos : 0 < st.handlers.ptr
  gread : read st.heap st.handlers = a.global
  glen : st.groups.length = a.groups.length
  grp : ∀ (g : Nat) (gr : Group), st.groups[g]? = some gr → Wf st.heap gr.handlers ∧ 0 < gr.handlers.ptr ∧
    gr.handlers.ptr ≠ st.handlers.ptr ∧ a.groups[g]? = some (gr.start, gr.stop, read st.heap gr.handlers)
  sep : ∀ (g g' : Nat) (gr gr' : Group), g ≠ g' → st.groups[g]? = some gr → st.groups[g']? = some gr' → gr.handlers.ptr ≠ gr'.handlers.ptr
  api : ∀ (i : UInt32) (s : Slice), st.apis i = some s → s.ptr < st.heap.length ∧ s.ptr ≠ st.handlers.ptr ∧
    (∀ (g : Nat) (gr : Group), st.groups[g]? = some gr → s.ptr ≠ gr.handlers.ptr) ∧ a.routes i = some (read st.heap s)
  noapi : ∀ i, st.apis i = none → a.routes i = none

theorem Rep.new : Rep (State.new H) { global := [], groups := [], routes := fun _ => none } := by
  refine ⟨rfl, ⟨by simp [State.new, make], by simp [State.new, make]⟩, by simp [State.new, make], by simp [State.new, make, read],
    rfl, ?_, ?_, ?_, fun _ _ => rfl⟩
  · intro g gr h; simp [State.new, make] at h
  · intro g g' gr gr' _ h; simp [State.new, make] at h
  · intro i s h; simp [State.new] at h

theorem Rep.use {st : State H} {a : Abs H} (r : Rep st a) (spare : Nat → Nat) (hs : List (Option H)) :
    Rep (st.use spare hs) { a with global := a.global ++ hs } := by
  obtain ⟨e1, e2, e3, e4, e5⟩ := append_spec spare st.heap st.handlers hs r.gwf
  unfold State.use
  generalize append spare st.heap st.handlers hs = x at *
  obtain ⟨h', s'⟩ := x
  simp only at e1 e2 e3 e4 e5 ⊢
  have hlen0 : 0 < st.heap.length := by have := r.gwf.1; omega
  refine ⟨?_, e2, ?_, by rw [e1, r.gread], r.glen, ?_, r.sep, ?_, r.noapi⟩
  · rw [e5 0 hlen0 (by have := r.gpos; omega)]; exact r.null
  · rcases e4 with h | h
    · rw [h]; exact r.gpos
    · rw [h]; exact hlen0
  · intro g gr hg
    obtain ⟨g1, g2, g3, g4⟩ := r.grp g gr hg
    have e := e5 _ g1.1 g3
    refine ⟨wf_congr e e3 g1, g2, ?_, by rw [g4, read_congr e]⟩
    rcases e4 with h | h
    · rw [h]; exact g3
    · rw [h]; have := g1.1; omega
  · intro i s hi
    obtain ⟨a1, a2, a3, a4⟩ := r.api i s hi
    have e := e5 _ a1 a2
    refine ⟨by show s.ptr < h'.length; omega, ?_, a3, by rw [a4, read_congr e]⟩
    show s.ptr ≠ s'.ptr
    rcases e4 with h | h
    · rw [h]; exact a2
    · rw [h]; omega

/-- A heap that only grew represents the same state. -/
theorem Rep.grow {st : State H} {a : Abs H} (r : Rep st a) (h' : Heap H) (hl : st.heap.length ≤ h'.length)
    (he : ∀ q, q < st.heap.length → h'[q]? = st.heap[q]?) : Rep { st with heap := h' } a := by
  have hlen0 : 0 < st.heap.length := by have := r.gwf.1; omega
  refine ⟨by rw [he 0 hlen0]; exact r.null, wf_congr (he _ r.gwf.1) hl r.gwf, r.gpos, by rw [← r.gread]; exact read_congr (he _ r.gwf.1),
    r.glen, ?_, r.sep, ?_, r.noapi⟩
  · intro g gr hg
    obtain ⟨g1, g2, g3, g4⟩ := r.grp g gr hg
    exact ⟨wf_congr (he _ g1.1) hl g1, g2, g3, by rw [g4, read_congr (he _ g1.1)]⟩
  · intro i s hi
    obtain ⟨a1, a2, a3, a4⟩ := r.api i s hi
    exact ⟨by show s.ptr < h'.length; omega, a2, a3, by rw [a4, read_congr (he _ a1)]⟩

theorem Rep.addHandler {st : State H} {a : Abs H} (r : Rep st a) (spare : Nat → Nat) (i : UInt32) (hs : List (Option H)) :
    match st.addHandler spare i hs with
    | .ok st' => a.routes i = none ∧
        Rep st' { a with routes := fun j => if j = i then some (a.global ++ hs) else a.routes j }
    | .error _ => a.routes i ≠ none := by
  unfold State.addHandler
  cases hi : st.apis i with
  | some s => simp only; rw [(r.api i s hi).2.2.2]; simp
  | none =>
    simp only
    refine ⟨r.noapi i hi, ?_⟩
    obtain ⟨m1, m2, m3, m4, m5⟩ := merge_spec st.heap st.handlers hs r.gwf
    generalize merge st.heap st.handlers hs = x at *
    obtain ⟨h1, m⟩ := x
    simp only at m1 m2 m3 m4 m5 ⊢
    have hlen0 : 0 < st.heap.length := by have := r.gwf.1; omega
    have hnull : h1[0]? = some [] := by rw [m5 0 hlen0]; exact r.null
    obtain ⟨e1, e2, e3, e4, e5⟩ := append_spec spare h1 nilSlice (read h1 m) ⟨by simp [nilSlice]; omega, by simp [nilSlice]⟩
    have hnull2 : (append spare h1 nilSlice (read h1 m)).1[0]? = some [] := by
      unfold append
      by_cases hc : nilSlice.len + (read h1 m).length ≤ ((h1[nilSlice.ptr]?).getD []).length
      · rw [if_pos hc]
        have hz : (h1[nilSlice.ptr]?).getD [] = [] := by show (h1[0]?).getD [] = []; rw [hnull]; rfl
        rw [hz] at hc ⊢
        have hnil : read h1 m = [] := by
          apply List.eq_nil_of_length_eq_zero
          simp only [nilSlice, List.length_nil] at hc; omega
        rw [hnil]
        show (h1.set 0 (overwrite [] 0 []))[0]? = some []
        rw [List.getElem?_set_self (by omega)]; rfl
      · rw [if_neg hc]
        show (h1 ++ _)[0]? = some []
        rw [List.getElem?_append_left (by omega)]; exact hnull
    have hkeep : ∀ q, q < st.heap.length → (append spare h1 nilSlice (read h1 m)).1[q]? = st.heap[q]? := by
      intro q hq
      by_cases h0 : q = 0
      · rw [h0, hnull2, r.null]
      · rw [e5 q (by omega) h0]; exact m5 q hq
    generalize append spare h1 nilSlice (read h1 m) = y at *
    obtain ⟨h2, s⟩ := y
    simp only at e1 e2 e3 e4 e5 hnull2 hkeep ⊢
    have r' := r.grow h2 (by omega) hkeep
    refine ⟨r'.null, r'.gwf, r'.gpos, r'.gread, r'.glen, r'.grp, r'.sep, ?_, ?_⟩
    · intro j t hj
      dsimp only at hj
      by_cases hji : j = i
      · rw [if_pos hji] at hj
        simp only [Option.some.injEq] at hj
        subst hj
        have hsp : s.ptr = 0 ∨ st.heap.length < s.ptr + 1 := by
          rcases e4 with h | h
          · left; rw [h]; rfl
          · right; rw [h]; omega
        refine ⟨e2.1, ?_, ?_, ?_⟩
        · have := r.gpos; have := r.gwf.1; show s.ptr ≠ st.handlers.ptr; omega
        · intro g gr hg
          obtain ⟨g1, g2, _⟩ := r.grp g gr hg
          have := g1.1; omega
        · simp only [if_pos hji]
          rw [e1, m1, r.gread]
          simp [nilSlice, read]
      · rw [if_neg hji] at hj
        simp only [if_neg hji]
        exact r'.api j t hj
    · intro j hj
      dsimp only at hj
      by_cases hji : j = i
      · rw [if_pos hji] at hj; simp at hj
      · rw [if_neg hji] at hj
        simp only [if_neg hji]
        exact r.noapi j hj

theorem Rep.group {st : State H} {a : Abs H} (r : Rep st a) (spare : Nat → Nat) (lo hi : UInt32) (hs : List (Option H)) :
    Rep (st.group spare lo hi hs) { a with groups := a.groups ++ [(lo, hi, hs)] } := by
  unfold State.group
  obtain ⟨m1, m2, m3, m4, m5, m6⟩ := make_spec st.heap 0 hs.length (by omega)
  have hread0 : read (make st.heap 0 hs.length).1 (make st.heap 0 hs.length).2 = [] := by unfold read; rw [m3]; simp
  generalize make st.heap 0 hs.length = x at *
  obtain ⟨h1, s⟩ := x
  simp only at m1 m2 m3 m4 m5 m6 hread0 ⊢
  obtain ⟨e1, e2, e3, e4, e5⟩ := append_spec spare h1 s hs m1
  generalize append spare h1 s hs = y at *
  obtain ⟨h2, s'⟩ := y
  simp only at e1 e2 e3 e4 e5 ⊢
  have hkeep : ∀ q, q < st.heap.length → h2[q]? = st.heap[q]? := by
    intro q hq
    rw [e5 q (by omega) (by omega)]; exact m6 q hq
  have r' := r.grow h2 (by omega) hkeep
  have hlen0 : 0 < st.heap.length := by have := r.gwf.1; omega
  have hs' : st.heap.length ≤ s'.ptr := by rcases e4 with h | h <;> omega
  refine ⟨r'.null, r'.gwf, r'.gpos, r'.gread, by simp [r.glen], ?_, ?_, ?_, r'.noapi⟩
  · intro g gr hg
    rcases Nat.lt_or_ge g st.groups.length with hlt | hge
    · rw [List.getElem?_append_left hlt] at hg
      obtain ⟨g1, g2, g3, g4⟩ := r'.grp g gr hg
      refine ⟨g1, g2, g3, ?_⟩
      rw [List.getElem?_append_left (by rw [← r.glen]; exact hlt)]; exact g4
    · rw [List.getElem?_append_right hge] at hg
      have hz : g - st.groups.length = 0 := by
        rcases Nat.eq_zero_or_pos (g - st.groups.length) with h | h
        · exact h
        · rw [List.getElem?_eq_none (by simp; omega)] at hg; simp at hg
      rw [hz] at hg
      simp only [List.getElem?_cons_zero, Option.some.injEq] at hg
      subst hg
      refine ⟨e2, by show 0 < s'.ptr; omega, ?_, ?_⟩
      · have := r.gwf.1; show s'.ptr ≠ st.handlers.ptr; omega
      · rw [List.getElem?_append_right (by rw [← r.glen]; exact hge), ← r.glen, hz]
        simp [e1, hread0]
  · intro g g' gr gr' hne hg hg'
    have key : ∀ g gr, (st.groups ++ [({ start := lo, stop := hi, handlers := s' } : Group)])[g]? = some gr →
        (st.groups[g]? = some gr ∧ gr.handlers.ptr < st.heap.length) ∨ (g = st.groups.length ∧ gr.handlers.ptr = s'.ptr) := by
      intro g gr hg
      rcases Nat.lt_or_ge g st.groups.length with hlt | hge
      · rw [List.getElem?_append_left hlt] at hg
        exact .inl ⟨hg, (r.grp g gr hg).1.1⟩
      · rw [List.getElem?_append_right hge] at hg
        have hz : g - st.groups.length = 0 := by
          rcases Nat.eq_zero_or_pos (g - st.groups.length) with h | h
          · exact h
          · rw [List.getElem?_eq_none (by simp; omega)] at hg; simp at hg
        rw [hz] at hg
        simp only [List.getElem?_cons_zero, Option.some.injEq] at hg
        subst hg
        exact .inr ⟨by omega, rfl⟩
    rcases key g gr hg with ⟨h1, h2⟩ | ⟨h1, h2⟩ <;> rcases key g' gr' hg' with ⟨h3, h4⟩ | ⟨h3, h4⟩
    · exact r.sep g g' gr gr' hne h1 h3
    · omega
    · omega
    · omega
  · intro i t hi
    obtain ⟨a1, a2, a3, a4⟩ := r'.api i t hi
    have hold := (r.api i t hi).1
    refine ⟨a1, a2, ?_, a4⟩
    intro g gr hg
    rcases Nat.lt_or_ge g st.groups.length with hlt | hge
    · rw [List.getElem?_append_left hlt] at hg
      exact a3 g gr hg
    · rw [List.getElem?_append_right hge] at hg
      have hz : g - st.groups.length = 0 := by
        rcases Nat.eq_zero_or_pos (g - st.groups.length) with h | h
        · exact h
        · rw [List.getElem?_eq_none (by simp; omega)] at hg; simp at hg
      rw [hz] at hg
      simp only [List.getElem?_cons_zero, Option.some.injEq] at hg
      subst hg
      show t.ptr ≠ s'.ptr
      omega

theorem Rep.groupUse {st : State H} {a : Abs H} (r : Rep st a) (spare : Nat → Nat) (g : Nat) (hs : List (Option H)) :
    match st.groupUse spare g hs with
    | .ok st' => ∃ lo hi l, a.groups[g]? = some (lo, hi, l) ∧ Rep st' { a with groups := a.groups.set g (lo, hi, l ++ hs) }
    | .error _ => a.groups[g]? = none := by
  unfold State.groupUse
  cases hg : st.groups[g]? with
  | none =>
    simp only
    rw [List.getElem?_eq_none_iff] at hg ⊢
    rw [← r.glen]; exact hg
  | some gr =>
    simp only
    obtain ⟨g1, g2, g3, g4⟩ := r.grp g gr hg
    refine ⟨_, _, _, g4, ?_⟩
    obtain ⟨e1, e2, e3, e4, e5⟩ := append_spec spare st.heap gr.handlers hs g1
    generalize append spare st.heap gr.handlers hs = y at *
    obtain ⟨h', s'⟩ := y
    simp only at e1 e2 e3 e4 e5 ⊢
    have hlen0 : 0 < st.heap.length := by have := r.gwf.1; omega
    have hglt : g < st.groups.length := by
      rcases Nat.lt_or_ge g st.groups.length with h | h
      · exact h
      · rw [List.getElem?_eq_none h] at hg; simp at hg
    have hgk := e5 _ r.gwf.1 (Ne.symm g3)
    -- arrays of other groups
    have hother : ∀ g' gr', g' ≠ g → st.groups[g']? = some gr' → h'[gr'.handlers.ptr]? = st.heap[gr'.handlers.ptr]? := by
      intro g' gr' hne hg'
      exact e5 _ (r.grp g' gr' hg').1.1 (r.sep g' g gr' gr hne hg' hg)
    have hs'other : ∀ p, p < st.heap.length → p ≠ gr.handlers.ptr → p ≠ s'.ptr := by
      intro p hp hne
      rcases e4 with h | h <;> omega
    refine ⟨?_, wf_congr hgk e3 r.gwf, r.gpos, by rw [← r.gread]; exact read_congr hgk, by simp [r.glen], ?_, ?_, ?_, r.noapi⟩
    · rw [e5 0 hlen0 (by omega)]; exact r.null
    · intro g' gr' hg'
      by_cases hgg : g' = g
      · subst hgg
        rw [List.getElem?_set_self hglt] at hg'
        simp only [Option.some.injEq] at hg'
        subst hg'
        refine ⟨e2, ?_, ?_, ?_⟩
        · show 0 < s'.ptr
          rcases e4 with h | h <;> omega
        · exact Ne.symm (hs'other _ r.gwf.1 (Ne.symm g3))
        · rw [List.getElem?_set_self (by rw [← r.glen]; exact hglt)]
          simp only [e1]
      · rw [List.getElem?_set_ne (Ne.symm hgg)] at hg'
        obtain ⟨k1, k2, k3, k4⟩ := r.grp g' gr' hg'
        have e := hother g' gr' hgg hg'
        refine ⟨wf_congr e e3 k1, k2, k3, ?_⟩
        rw [List.getElem?_set_ne (Ne.symm hgg), k4, read_congr e]
    · intro x x' gx gx' hne hx hx'
      by_cases h1 : x = g
      · subst h1
        rw [List.getElem?_set_self hglt] at hx
        rw [List.getElem?_set_ne hne] at hx'
        simp only [Option.some.injEq] at hx
        subst hx
        exact Ne.symm (hs'other _ (r.grp x' gx' hx').1.1 (r.sep x' x gx' gr (Ne.symm hne) hx' hg))
      · rw [List.getElem?_set_ne (Ne.symm h1)] at hx
        by_cases h2 : x' = g
        · subst h2
          rw [List.getElem?_set_self hglt] at hx'
          simp only [Option.some.injEq] at hx'
          subst hx'
          exact hs'other _ (r.grp x gx hx).1.1 (r.sep x x' gx gr hne hx hg)
        · rw [List.getElem?_set_ne (Ne.symm h2)] at hx'
          exact r.sep x x' gx gx' hne hx hx'
    · intro i t hi
      obtain ⟨a1, a2, a3, a4⟩ := r.api i t hi
      have e := e5 _ a1 (a3 g gr hg)
      refine ⟨by show t.ptr < h'.length; omega, a2, ?_, by rw [a4, read_congr e]⟩
      intro x gx hx
      by_cases h1 : x = g
      · subst h1
        rw [List.getElem?_set_self hglt] at hx
        simp only [Option.some.injEq] at hx
        subst hx
        exact hs'other _ a1 (a3 x gr hg)
      · rw [List.getElem?_set_ne (Ne.symm h1)] at hx
        exact a3 x gx hx

theorem Rep.groupAdd {st : State H} {a : Abs H} (r : Rep st a) (spare : Nat → Nat) (g : Nat) (i : UInt32) (hs : List (Option H)) :
    match st.groupAdd spare g i hs with
    | .ok st' => ∃ lo hi l, a.groups[g]? = some (lo, hi, l) ∧ lo ≤ i ∧ i ≤ hi ∧ a.routes i = none ∧
        Rep st' { a with routes := fun j => if j = i then some (a.global ++ (l ++ hs)) else a.routes j }
    | .error _ => ∀ lo hi l, a.groups[g]? = some (lo, hi, l) → lo ≤ i → i ≤ hi → a.routes i ≠ none := by
  unfold State.groupAdd
  cases hg : st.groups[g]? with
  | none =>
    simp only
    intro lo hi l h
    rw [List.getElem?_eq_none_iff] at hg
    rw [List.getElem?_eq_none (by rw [← r.glen]; exact hg)] at h
    simp at h
  | some gr =>
    simp only
    obtain ⟨g1, g2, g3, g4⟩ := r.grp g gr hg
    by_cases hrange : i < gr.start ∨ i > gr.stop
    · rw [if_pos hrange]
      simp only
      intro lo hi l h h1 h2
      rw [g4] at h
      simp only [Option.some.injEq, Prod.mk.injEq] at h
      obtain ⟨rfl, rfl, _⟩ := h
      exfalso
      rcases hrange with h | h
      · exact absurd (UInt32.lt_of_lt_of_le h h1) (UInt32.lt_irrefl _)
      · exact absurd (UInt32.lt_of_le_of_lt h2 h) (UInt32.lt_irrefl _)
    · rw [if_neg hrange]
      obtain ⟨m1, m2, m3, m4, m5⟩ := merge_spec st.heap gr.handlers hs g1
      generalize merge st.heap gr.handlers hs = x at *
      obtain ⟨h1, m⟩ := x
      simp only at m1 m2 m3 m4 m5 ⊢
      have r' := r.grow h1 (by omega) m5
      have h := r'.addHandler spare i (read h1 m)
      cases hadd : ({ st with heap := h1 } : State H).addHandler spare i (read h1 m) with
      | ok st' =>
        rw [hadd] at h
        simp only at h ⊢
        refine ⟨_, _, _, g4, ?_, ?_, h.1, ?_⟩
        · exact UInt32.not_lt.mp (fun h => hrange (.inl h))
        · exact UInt32.not_lt.mp (fun h => hrange (.inr h))
        · rw [← m1]; exact h.2
      | error e =>
        rw [hadd] at h
        simp only at h ⊢
        intro lo hi l _ _ _
        exact h

end Zinx.Router

namespace Zinx.Router

variable {H : Type}

theorem usedBy_snoc (ops : List (Op H)) (o : Op H) : usedBy (ops ++ [o]) = usedBy ops ++ usedBy [o] := by
  unfold usedBy; rw [List.flatMap_append]

theorem groupCalls_snoc (ops : List (Op H)) (o : Op H) : groupCalls (ops ++ [o]) = groupCalls ops ++ groupCalls [o] := by
  unfold groupCalls; rw [List.filterMap_append]

theorem groupUsedBy_snoc (g : Nat) (ops : List (Op H)) (o : Op H) :
    groupUsedBy g (ops ++ [o]) = groupUsedBy g ops ++ groupUsedBy g [o] := by
  unfold groupUsedBy; rw [List.flatMap_append]

theorem run_snoc (spare : Nat → Nat) (st : State H) (ops : List (Op H)) (o : Op H) :
    st.run spare (ops ++ [o]) = match (st.run spare ops).step spare o with
      | .ok st' => st'
      | .error _ => st.run spare ops := by
  induction ops generalizing st with
  | nil =>
    simp only [List.nil_append, State.run]
    cases st.step spare o <;> rfl
  | cons p ps ih =>
    simp only [List.cons_append, State.run]
    cases st.step spare p with
    | ok st' => exact ih st'
    | error e => exact ih st

theorem routeOf_snoc (i : UInt32) (pre ops : List (Op H)) (o : Op H) :
    routeOf i pre (ops ++ [o]) = match routeOf i pre ops with
      | some hs => some hs
      | none => match registers (pre ++ ops) o with
        | some (j, hs) => if j = i then some hs else none
        | none => none := by
  induction ops generalizing pre with
  | nil =>
    simp only [List.nil_append, routeOf, List.append_nil]
    cases registers pre o <;> rfl
  | cons p ps ih =>
    simp only [List.cons_append, routeOf]
    cases registers pre p with
    | none => simp only; rw [ih]; simp only [List.append_assoc, List.cons_append, List.nil_append]
    | some x =>
      obtain ⟨j, hs⟩ := x
      simp only
      by_cases hj : j = i
      · simp only [if_pos hj]
      · simp only [if_neg hj]; rw [ih]; simp only [List.append_assoc, List.cons_append, List.nil_append]

/-- What a history means. -/
def absOf (ops : List (Op H)) : Abs H where
  global := usedBy ops
  groups := (groupCalls ops).mapIdx fun g c => (c.1, c.2.1, c.2.2 ++ groupUsedBy g ops)
  routes := fun i => routeOf i [] ops

theorem sensible_snoc {ops : List (Op H)} {o : Op H} (h : Sensible (ops ++ [o])) : Sensible ops ∧ GroupExists ops o := by
  refine ⟨?_, h ops o [] rfl⟩
  intro pre o' post e
  exact h pre o' (post ++ [o]) (by rw [e]; simp)

theorem rep_snoc_same {ops : List (Op H)} {o : Op H} {st : State H} (r : Rep st (absOf ops))
    (h1 : usedBy [o] = []) (h2 : groupCalls [o] = []) (h3 : ∀ g, groupUsedBy g [o] = [])
    (h4 : ∀ i, routeOf i [] (ops ++ [o]) = routeOf i [] ops) : Rep st (absOf (ops ++ [o])) := by
  have : absOf (ops ++ [o]) = absOf ops := by
    unfold absOf
    simp only [usedBy_snoc, groupCalls_snoc, groupUsedBy_snoc, h1, h2, h3, h4, List.append_nil]
  rw [this]; exact r

theorem snoc_induction {α : Type} {P : List α → Prop} (h0 : P []) (h1 : ∀ l a, P l → P (l ++ [a])) : ∀ l, P l := by
  intro l
  have : ∀ n (l : List α), l.length = n → P l := by
    intro n
    induction n with
    | zero => intro l h; rw [List.eq_nil_of_length_eq_zero h]; exact h0
    | succ n ih =>
      intro l h
      have hne : l ≠ [] := by intro e; subst e; simp at h
      rw [← List.dropLast_concat_getLast hne]
      exact h1 _ _ (ih _ (by simp; omega))
  exact this _ l rfl

theorem groupUsedBy_future (ops : List (Op H)) : Sensible ops → ∀ g, (groupCalls ops).length ≤ g → groupUsedBy g ops = [] := by
  refine snoc_induction (P := fun ops => Sensible ops → ∀ g, (groupCalls ops).length ≤ g → groupUsedBy g ops = []) ?_ ?_ ops
  · intros; rfl
  · intro l o ih hs g hg
    obtain ⟨hs1, hs2⟩ := sensible_snoc hs
    rw [groupCalls_snoc, List.length_append] at hg
    rw [groupUsedBy_snoc, ih hs1 g (by omega), List.nil_append]
    cases o with
    | groupUse g' hs =>
      simp only [GroupExists] at hs2
      have : g' ≠ g := by omega
      simp [groupUsedBy, this]
    | _ => rfl

theorem absOf_groups_get (ops : List (Op H)) (g : Nat) : (absOf ops).groups[g]? =
    (groupCalls ops)[g]?.map fun c => (c.1, c.2.1, c.2.2 ++ groupUsedBy g ops) := by
  unfold absOf; rw [List.getElem?_mapIdx]

theorem Rep.abs_congr {st : State H} {a b : Abs H} (r : Rep st a) (h1 : a.global = b.global) (h2 : a.groups = b.groups)
    (h3 : ∀ i, a.routes i = b.routes i) : Rep st b := by
  have : a = b := by
    cases a; cases b
    simp only at h1 h2 h3
    rw [h1, h2, funext h3]
  rw [← this]; exact r

theorem routes_none {ops : List (Op H)} {o : Op H} (h : registers ops o = none) (i : UInt32) :
    routeOf i [] (ops ++ [o]) = routeOf i [] ops := by
  rw [routeOf_snoc, List.nil_append, h]
  cases routeOf i [] ops <;> rfl

theorem routes_some {ops : List (Op H)} {o : Op H} {j : UInt32} {hs : List (Option H)} (h : registers ops o = some (j, hs))
    (hj : routeOf j [] ops = none) (i : UInt32) :
    routeOf i [] (ops ++ [o]) = if i = j then some hs else routeOf i [] ops := by
  rw [routeOf_snoc, List.nil_append, h]
  by_cases hij : i = j
  · subst hij
    simp [hj]
  · rw [if_neg hij]
    simp only [if_neg (Ne.symm hij)]
    cases routeOf i [] ops <;> rfl

theorem routes_dup {ops : List (Op H)} {o : Op H} {j : UInt32} {hs : List (Option H)} (h : registers ops o = some (j, hs))
    (hj : routeOf j [] ops ≠ none) (i : UInt32) : routeOf i [] (ops ++ [o]) = routeOf i [] ops := by
  rw [routeOf_snoc, List.nil_append, h]
  by_cases hij : i = j
  · subst hij
    cases hr : routeOf i [] ops with
    | none => exact absurd hr hj
    | some x => rfl
  · simp only [if_neg (Ne.symm hij)]
    cases routeOf i [] ops <;> rfl

theorem registers_groupAdd {ops : List (Op H)} {g : Nat} {i : UInt32} {hs : List (Option H)} {lo hi : UInt32} {l : List (Option H)}
    (hg : (absOf ops).groups[g]? = some (lo, hi, l)) :
    registers ops (.groupAdd g i hs) = if lo ≤ i ∧ i ≤ hi then some (i, usedBy ops ++ (l ++ hs)) else none := by
  rw [absOf_groups_get] at hg
  unfold registers
  cases hc : (groupCalls ops)[g]? with
  | none => rw [hc] at hg; simp at hg
  | some c =>
    obtain ⟨a, b, init⟩ := c
    rw [hc] at hg
    simp only [Option.map_some, Option.some.injEq, Prod.mk.injEq] at hg
    obtain ⟨rfl, rfl, rfl⟩ := hg
    simp only [hc]

/-- The state after any sensible history represents the history. -/
theorem rep_run (spare : Nat → Nat) (ops : List (Op H)) : Sensible ops → Rep ((State.new H).run spare ops) (absOf ops) := by
  refine snoc_induction (P := fun ops => Sensible ops → Rep ((State.new H).run spare ops) (absOf ops)) (fun _ => Rep.new) ?_ ops
  intro init o ih hsens
  obtain ⟨hs1, hs2⟩ := sensible_snoc hsens
  have r := ih hs1
  rw [run_snoc]
  generalize (State.new H).run spare init = st at r ⊢
  cases o with
  | use hs =>
    refine (r.use spare hs).abs_congr ?_ ?_ ?_
    · simp only [absOf, usedBy_snoc]; simp [usedBy]
    · simp only [absOf, groupCalls_snoc, groupUsedBy_snoc]; simp [groupCalls, groupUsedBy]
    · intro i; exact (routes_none rfl i).symm
  | group lo hi hs =>
    refine (r.group spare lo hi hs).abs_congr ?_ ?_ ?_
    · simp only [absOf, usedBy_snoc]; simp [usedBy]
    · simp only [absOf, groupCalls_snoc, groupUsedBy_snoc, List.mapIdx_append]
      have := groupUsedBy_future init hs1 _ (Nat.le_refl _)
      simp [groupCalls, groupUsedBy] at this ⊢
      exact this
    · intro i; exact (routes_none rfl i).symm
  | addHandler i hs =>
    have h := r.addHandler spare i hs
    simp only [State.step]
    cases hst : st.addHandler spare i hs with
    | ok st' =>
      rw [hst] at h
      simp only at h ⊢
      refine h.2.abs_congr ?_ ?_ ?_
      · simp only [absOf, usedBy_snoc]; simp [usedBy]
      · simp only [absOf, groupCalls_snoc, groupUsedBy_snoc]; simp [groupCalls, groupUsedBy]
      · intro j; exact (routes_some rfl h.1 j).symm
    | error e =>
      rw [hst] at h
      simp only at h ⊢
      exact rep_snoc_same r rfl rfl (fun _ => rfl) (routes_dup rfl h)
  | groupUse g hs =>
    have h := r.groupUse spare g hs
    simp only [State.step]
    simp only [GroupExists] at hs2
    have hget : (absOf init).groups[g]? ≠ none := by
      rw [absOf_groups_get, List.getElem?_eq_getElem hs2]; simp
    cases hst : st.groupUse spare g hs with
    | ok st' =>
      rw [hst] at h
      simp only at h ⊢
      obtain ⟨lo, hi, l, hg, hrep⟩ := h
      refine hrep.abs_congr ?_ ?_ ?_
      · simp only [absOf, usedBy_snoc]; simp [usedBy]
      · apply List.ext_getElem?
        intro k
        rw [absOf_groups_get, groupCalls_snoc, groupUsedBy_snoc]
        have e1 : groupCalls [Op.groupUse g hs] = [] := rfl
        rw [e1, List.append_nil]
        by_cases hk : k = g
        · subst hk
          have hlt : k < (absOf init).groups.length := by
            rcases Nat.lt_or_ge k (absOf init).groups.length with h | h
            · exact h
            · rw [List.getElem?_eq_none h] at hg; simp at hg
          rw [List.getElem?_set_self hlt]
          rw [absOf_groups_get] at hg
          cases hc : (groupCalls init)[k]? with
          | none => rw [hc] at hg; simp at hg
          | some c =>
            rw [hc] at hg
            simp only [Option.map_some, Option.some.injEq, Prod.mk.injEq] at hg ⊢
            obtain ⟨rfl, rfl, rfl⟩ := hg
            simp [groupUsedBy]
        · rw [List.getElem?_set_ne (Ne.symm hk), absOf_groups_get]
          have e2 : groupUsedBy k [Op.groupUse g hs] = [] := by simp [groupUsedBy, Ne.symm hk]
          rw [e2, List.append_nil]
      · intro i; exact (routes_none rfl i).symm
    | error e =>
      rw [hst] at h
      exact absurd h hget
  | groupAdd g i hs =>
    have h := r.groupAdd spare g i hs
    simp only [State.step]
    simp only [GroupExists] at hs2
    cases hst : st.groupAdd spare g i hs with
    | ok st' =>
      rw [hst] at h
      simp only at h ⊢
      obtain ⟨lo, hi, l, hg, h1, h2, h3, hrep⟩ := h
      refine hrep.abs_congr ?_ ?_ ?_
      · simp only [absOf, usedBy_snoc]; simp [usedBy]
      · simp only [absOf, groupCalls_snoc, groupUsedBy_snoc]; simp [groupCalls, groupUsedBy]
      · intro j
        refine (routes_some ?_ h3 j).symm
        rw [registers_groupAdd hg, if_pos ⟨h1, h2⟩]; rfl
    | error e =>
      rw [hst] at h
      simp only at h ⊢
      refine rep_snoc_same r rfl rfl (fun _ => rfl) ?_
      intro j
      obtain ⟨⟨lo, hi, l⟩, hg⟩ : ∃ c, (absOf init).groups[g]? = some c := by
        rw [absOf_groups_get, List.getElem?_eq_getElem hs2]; exact ⟨_, rfl⟩
      have hreg := registers_groupAdd (i := i) (hs := hs) hg
      by_cases hr : lo ≤ i ∧ i ≤ hi
      · rw [if_pos hr] at hreg
        exact routes_dup hreg (h lo hi l hg hr.1 hr.2) j
      · rw [if_neg hr] at hreg
        exact routes_none hreg j

/-- The stored handlers of every message are those of the history. -/
theorem getHandlers_run (spare : Nat → Nat) (ops : List (Op H)) (h : Sensible ops) (i : UInt32) :
    ((State.new H).run spare ops).getHandlers i = routeOf i [] ops := by
  have r := rep_run spare ops h
  unfold State.getHandlers
  cases hi : ((State.new H).run spare ops).apis i with
  | none => exact (r.noapi i hi).symm
  | some s => exact (r.api i s hi).2.2.2.symm

theorem routeOf_none_of_not_names (i : UInt32) (pre ops : List (Op H)) (h : ∀ o ∈ ops, ¬ names i o) : routeOf i pre ops = none := by
  induction ops generalizing pre with
  | nil => rfl
  | cons o os ih =>
    have hrest := ih (pre ++ [o]) (fun o' ho' => h o' (List.mem_cons_of_mem _ ho'))
    have ho := h o List.mem_cons_self
    cases o with
    | addHandler j hs =>
      simp only [names] at ho
      simp only [routeOf, registers, if_neg ho]; exact hrest
    | groupAdd g j hs =>
      simp only [names] at ho
      simp only [routeOf, registers]
      cases (groupCalls pre)[g]? with
      | none => exact hrest
      | some c =>
        obtain ⟨a, b, init⟩ := c
        simp only
        by_cases hr : a ≤ j ∧ j ≤ b
        · rw [if_pos hr]; simp only [if_neg ho]; exact hrest
        · rw [if_neg hr]; exact hrest
    | _ => exact hrest

theorem routeOf_mid (i : UInt32) (q pre post : List (Op H)) (o : Op H) (h : ∀ o ∈ pre, ¬ names i o) :
    routeOf i q (pre ++ o :: post) = routeOf i (q ++ pre) (o :: post) := by
  induction pre generalizing q with
  | nil => simp
  | cons p ps ih =>
    have hps := ih (q ++ [p]) (fun o' ho' => h o' (List.mem_cons_of_mem _ ho'))
    have hp := h p List.mem_cons_self
    have key : routeOf i q (p :: (ps ++ o :: post)) = routeOf i (q ++ [p]) (ps ++ o :: post) := by
      cases p with
      | addHandler j hs =>
        simp only [names] at hp
        simp only [routeOf, registers, if_neg hp]
      | groupAdd g j hs =>
        simp only [names] at hp
        simp only [routeOf, registers]
        cases (groupCalls q)[g]? with
        | none => rfl
        | some c =>
          obtain ⟨a, b, init⟩ := c
          simp only
          by_cases hr : a ≤ j ∧ j ≤ b
          · rw [if_pos hr]; simp only [if_neg hp]
          · rw [if_neg hr]
      | _ => rfl
    rw [List.cons_append, key, hps]
    simp

end Zinx.Router
