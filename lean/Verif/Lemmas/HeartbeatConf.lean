import Verif.Model.HeartbeatConf
import Verif.Lemmas.Router

/-! # Lemmas about checker objects -/

namespace Zinx.HeartbeatConf

open Zinx.Router (Heap Slice read nilSlice append Wf append_spec SameExcept read_congr wf_congr)

variable {H : Type}

/-- Slices lie in their own arrays, and channels are numbered below the counter and distinct. -/
structure Inv (st : State H) : Prop where
  pos : 0 < st.heap.length
  zero : st.heap[0]? = some []
  wf : ∀ (i : Nat) (c : Checker H), st.checkers[i]? = some c → Wf st.heap c.routerSlices ∧ 0 < c.routerSlices.len ∧ c.routerSlices.ptr ≠ 0
  ptr : ∀ (i j : Nat) (c e : Checker H), st.checkers[i]? = some c → st.checkers[j]? = some e → i ≠ j → c.routerSlices.ptr ≠ e.routerSlices.ptr
  chan : ∀ (i : Nat) (c : Checker H), st.checkers[i]? = some c → c.quitChan < st.chans
  chans : ∀ (i j : Nat) (c e : Checker H), st.checkers[i]? = some c → st.checkers[j]? = some e → i ≠ j → c.quitChan ≠ e.quitChan

theorem inv_empty : Inv (State.empty : State H) :=
  ⟨Nat.zero_lt_one, rfl, by intro i c h; simp [State.empty] at h, by intro i j c e h; simp [State.empty] at h, by intro i c h; simp [State.empty] at h,
    by intro i j c e h; simp [State.empty] at h⟩

theorem getElem?_snoc {α : Type} {l : List α} {x y : α} {i : Nat} (h : (l ++ [x])[i]? = some y) : l[i]? = some y ∧ i < l.length ∨ y = x ∧ i = l.length := by
  by_cases hi : i < l.length
  · rw [List.getElem?_append_left hi] at h
    exact .inl ⟨h, hi⟩
  · rw [List.getElem?_append_right (by omega)] at h
    by_cases h0 : i - l.length = 0
    · rw [h0] at h
      injection h with h
      exact .inr ⟨h.symm, by omega⟩
    · rw [List.getElem?_eq_none (by simp; omega)] at h
      cases h

/-- Adding a checker whose slice is in a new array. -/
theorem inv_push {st : State H} (hi : Inv st) (h : Heap H) (c : Checker H) (hl : st.heap.length < h.length)
    (hsame : ∀ q, q < st.heap.length → h[q]? = st.heap[q]?) (hw : Wf h c.routerSlices) (hp : c.routerSlices.ptr = st.heap.length)
    (hn : 0 < c.routerSlices.len) (hc : c.quitChan = st.chans) : Inv ⟨h, st.chans + 1, st.checkers ++ [c]⟩ := by
  have hpos := hi.pos
  refine ⟨by dsimp only; omega, by dsimp only; rw [hsame 0 hpos, hi.zero], ?_, ?_, ?_, ?_⟩
  · intro i e he
    rcases getElem?_snoc he with ⟨he, _⟩ | ⟨rfl, _⟩
    · obtain ⟨w, l, p⟩ := hi.wf i e he
      exact ⟨wf_congr (hsame _ w.1) (Nat.le_of_lt hl) w, l, p⟩
    · exact ⟨hw, hn, by omega⟩
  · intro i j e f he hf hne
    rcases getElem?_snoc he with ⟨he', _⟩ | ⟨e0, e1⟩ <;> rcases getElem?_snoc hf with ⟨hf', _⟩ | ⟨f0, e2⟩
    · exact hi.ptr i j e f he' hf' hne
    · rw [f0, hp]; have := (hi.wf i e he').1.1; omega
    · rw [e0, hp]; have := (hi.wf j f hf').1.1; omega
    · omega
  · intro i e he
    rcases getElem?_snoc he with ⟨he, _⟩ | ⟨rfl, _⟩
    · have := hi.chan i e he; dsimp only; omega
    · dsimp only; omega
  · intro i j e f he hf hne
    rcases getElem?_snoc he with ⟨he', _⟩ | ⟨e0, e1⟩ <;> rcases getElem?_snoc hf with ⟨hf', _⟩ | ⟨f0, e2⟩
    · exact hi.chans i j e f he' hf' hne
    · rw [f0, hc]; have := hi.chan i e he'; omega
    · rw [e0, hc]; have := hi.chan j f hf'; omega
    · omega

theorem getElem?_modify' {α : Type} {l : List α} {f : α → α} {i j : Nat} {y : α} (h : (l.modify i f)[j]? = some y) :
    ∃ x, l[j]? = some x ∧ (i = j ∧ y = f x ∨ i ≠ j ∧ y = x) := by
  rw [List.getElem?_modify] at h
  cases hx : l[j]? with
  | none => rw [hx] at h; cases h
  | some x =>
    rw [hx] at h
    replace h : some (if i = j then f x else x) = some y := h
    by_cases e : i = j
    · rw [if_pos e] at h; injection h with h
      exact ⟨x, rfl, .inl ⟨e, h.symm⟩⟩
    · rw [if_neg e] at h; injection h with h
      exact ⟨x, rfl, .inr ⟨e, h.symm⟩⟩

theorem getElem?_modify_same {α : Type} {l : List α} {f : α → α} {i : Nat} {x : α} (h : l[i]? = some x) : (l.modify i f)[i]? = some (f x) := by
  rw [List.getElem?_modify, h]
  show some (if i = i then f x else x) = _
  rw [if_pos rfl]

theorem getElem?_modify_ne {α : Type} (l : List α) (f : α → α) {i j : Nat} (h : i ≠ j) : (l.modify i f)[j]? = l[j]? := by
  rw [List.getElem?_modify]
  cases l[j]? with
  | none => rfl
  | some x =>
    show some (if i = j then f x else x) = _
    rw [if_neg h]

/-- Field assignments that keep the slice and the channel. -/
theorem inv_modify {st : State H} (hi : Inv st) (i : Nat) (f : Checker H → Checker H) (h1 : ∀ c, (f c).routerSlices = c.routerSlices)
    (h2 : ∀ c, (f c).quitChan = c.quitChan) : Inv (st.modify i f) := by
  have key : ∀ (j : Nat) (y : Checker H), (st.checkers.modify i f)[j]? = some y → ∃ x : Checker H, st.checkers[j]? = some x ∧ y.routerSlices = x.routerSlices ∧ y.quitChan = x.quitChan := by
    intro j y hy
    obtain ⟨x, hx, ⟨_, rfl⟩ | ⟨_, rfl⟩⟩ := getElem?_modify' hy
    · exact ⟨x, hx, h1 x, h2 x⟩
    · exact ⟨y, hx, rfl, rfl⟩
  refine ⟨hi.pos, hi.zero, ?_, ?_, ?_, ?_⟩
  · intro j y hy
    obtain ⟨x, hx, e1, _⟩ := key j y hy
    rw [e1]; exact hi.wf j x hx
  · intro j k y z hy hz hne
    obtain ⟨x, hx, e1, _⟩ := key j y hy
    obtain ⟨w, hw, e2, _⟩ := key k z hz
    rw [e1, e2]; exact hi.ptr j k x w hx hw hne
  · intro j y hy
    obtain ⟨x, hx, _, e1⟩ := key j y hy
    rw [e1]; exact hi.chan j x hx
  · intro j k y z hy hz hne
    obtain ⟨x, hx, _, e1⟩ := key j y hy
    obtain ⟨w, hw, _, e2⟩ := key k z hz
    rw [e1, e2]; exact hi.chans j k x w hx hw hne

theorem heap_new_same (st : State H) (x : List (Option H)) : ∀ q, q < st.heap.length → (st.heap ++ [x])[q]? = st.heap[q]? :=
  fun _ hq => List.getElem?_append_left hq

/-- The clone's slice: a new array with the same elements. -/
theorem clone_append {st : State H} (hi : Inv st) (spare : Nat → Nat) {i : Nat} {c : Checker H} (hc : st.checkers[i]? = some c) :
    (append spare st.heap nilSlice (read st.heap c.routerSlices)).1 = st.heap ++ [read st.heap c.routerSlices ++ List.replicate (spare c.routerSlices.len) none] ∧
      (append spare st.heap nilSlice (read st.heap c.routerSlices)).2 = ⟨st.heap.length, c.routerSlices.len⟩ := by
  obtain ⟨w, hn, _⟩ := hi.wf i c hc
  have hlen : (read st.heap c.routerSlices).length = c.routerSlices.len := by
    unfold Router.read; rw [List.length_take]; have := w.2; omega
  have h0 : read st.heap nilSlice = [] := by unfold Router.read nilSlice; rw [hi.zero]; rfl
  unfold append
  have hneg : ¬ (nilSlice.len + (read st.heap c.routerSlices).length ≤ ((st.heap[nilSlice.ptr]?).getD []).length) := by
    rw [hlen]
    have : st.heap[nilSlice.ptr]? = some [] := hi.zero
    rw [this]
    show ¬ (0 + c.routerSlices.len ≤ 0)
    omega
  rw [if_neg hneg, h0, hlen]
  have : nilSlice.len + c.routerSlices.len = c.routerSlices.len := Nat.zero_add _
  rw [this]
  exact ⟨rfl, rfl⟩

theorem clone_eq {st : State H} (hi : Inv st) (spare : Nat → Nat) {i : Nat} {c : Checker H} (hc : st.checkers[i]? = some c) :
    st.clone spare i = ⟨st.heap ++ [read st.heap c.routerSlices ++ List.replicate (spare c.routerSlices.len) none], st.chans + 1,
      st.checkers ++ [⟨c.interval, st.chans, c.makeMsg, c.onRemoteNotAlive, c.msgID, c.router, ⟨st.heap.length, c.routerSlices.len⟩, none, c.beatFunc⟩]⟩ := by
  obtain ⟨h1, h2⟩ := clone_append hi spare hc
  unfold State.clone
  rw [hc]
  dsimp only
  rw [h1, h2]

theorem read_last {h : Heap H} {xs ys : List (Option H)} {n : Nat} (hn : xs.length = n) : read (h ++ [xs ++ ys]) ⟨h.length, n⟩ = xs := by
  unfold Router.read
  simp [hn.symm]

theorem inv_clone {st : State H} (hi : Inv st) (spare : Nat → Nat) (i : Nat) : Inv (st.clone spare i) := by
  cases hc : st.checkers[i]? with
  | none => unfold State.clone; rw [hc]; exact hi
  | some c =>
    rw [clone_eq hi spare hc]
    obtain ⟨w, hn, _⟩ := hi.wf i c hc
    have hlen : (read st.heap c.routerSlices).length = c.routerSlices.len := by
      unfold Router.read; rw [List.length_take]; have := w.2; omega
    refine inv_push hi _ _ (by simp) (heap_new_same st _) ⟨by simp, ?_⟩ rfl hn rfl
    simp [hlen]

/-- What `BindRouterSlices` does when it does something. -/
theorem inv_bindSlices {st : State H} (hi : Inv st) (spare : Nat → Nat) {i : Nat} {c : Checker H} (hc : st.checkers[i]? = some c) (m : UInt32)
    (hs : List (Option H)) :
    let r := append spare st.heap c.routerSlices hs
    let st' : State H := { st with heap := r.1, checkers := st.checkers.modify i fun c => { c with msgID := m, routerSlices := r.2 } }
    Inv st' ∧ read r.1 r.2 = read st.heap c.routerSlices ++ hs ∧
      ∀ j e, st.checkers[j]? = some e → j ≠ i → read r.1 e.routerSlices = read st.heap e.routerSlices := by
  obtain ⟨w, hn, hz⟩ := hi.wf i c hc
  obtain ⟨a1, a2, a3, a4, a5⟩ := append_spec spare st.heap c.routerSlices hs w
  dsimp only
  have hlen : c.routerSlices.len ≤ (append spare st.heap c.routerSlices hs).2.len := by
    unfold append
    split <;> exact Nat.le_add_right _ _
  have hpos := hi.pos
  have hother : ∀ j e, st.checkers[j]? = some e → j ≠ i → (append spare st.heap c.routerSlices hs).1[e.routerSlices.ptr]? = st.heap[e.routerSlices.ptr]? := by
    intro j e he hne
    exact a5 _ (hi.wf j e he).1.1 (hi.ptr j i e c he hc hne)
  have key : ∀ (j : Nat) (y : Checker H), (st.checkers.modify i fun x => { x with msgID := m, routerSlices := (append spare st.heap c.routerSlices hs).2 })[j]? = some y →
      ∃ x : Checker H, st.checkers[j]? = some x ∧ y.quitChan = x.quitChan ∧
        (j = i ∧ y.routerSlices = (append spare st.heap c.routerSlices hs).2 ∨ j ≠ i ∧ y.routerSlices = x.routerSlices) := by
    intro j y hy
    obtain ⟨x, hx, ⟨e, rfl⟩ | ⟨e, rfl⟩⟩ := getElem?_modify' hy
    · subst e
      rw [hc] at hx
      injection hx with hx
      subst hx
      exact ⟨c, hc, rfl, .inl ⟨rfl, rfl⟩⟩
    · exact ⟨y, hx, rfl, .inr ⟨Ne.symm e, rfl⟩⟩
  refine ⟨?_, a1, fun j e he hne => read_congr (hother j e he hne)⟩
  refine ⟨by dsimp only; omega, ?_, ?_, ?_, ?_, ?_⟩
  · dsimp only
    rw [a5 0 hpos (Ne.symm hz), hi.zero]
  · intro j y hy
    obtain ⟨x, hx, _, ⟨rfl, e⟩ | ⟨hne, e⟩⟩ := key j y hy
    · rw [e]
      refine ⟨a2, by omega, ?_⟩
      rcases a4 with h | h <;> omega
    · rw [e]
      obtain ⟨w', hn', hz'⟩ := hi.wf j x hx
      exact ⟨wf_congr (hother j x hx hne) a3 w', hn', hz'⟩
  · intro j k y z hy hz' hne
    obtain ⟨x, hx, _, ⟨rfl, e⟩ | ⟨hj, e⟩⟩ := key j y hy <;> obtain ⟨w', hw', _, ⟨rfl, e'⟩ | ⟨hk, e'⟩⟩ := key k z hz'
    · exact absurd rfl hne
    · rw [e, e']
      rcases a4 with h | h
      · rw [h]; exact hi.ptr j k c w' hc hw' hne
      · rw [h]; have := (hi.wf k w' hw').1.1; omega
    · rw [e, e']
      rcases a4 with h | h
      · rw [h]; exact hi.ptr j k x c hx hc hne
      · rw [h]; have := (hi.wf j x hx).1.1; omega
    · rw [e, e']; exact hi.ptr j k x w' hx hw' hne
  · intro j y hy
    obtain ⟨x, hx, e, _⟩ := key j y hy
    rw [e]; exact hi.chan j x hx
  · intro j k y z hy hz' hne
    obtain ⟨x, hx, e, _⟩ := key j y hy
    obtain ⟨w', hw', e', _⟩ := key k z hz'
    rw [e, e']; exact hi.chans j k x w' hx hw' hne

theorem inv_step {st : State H} (hi : Inv st) (d : Defaults H) (spare : Nat → Nat) (o : Op H) : Inv (st.step d spare o) := by
  cases o with
  | new n =>
    refine inv_push hi _ _ (by simp) (heap_new_same st _) ⟨by simp, by simp⟩ rfl Nat.zero_lt_one rfl
  | setOnRemoteNotAlive i f => unfold State.step; dsimp only; split; exact inv_modify hi _ _ (fun _ => rfl) (fun _ => rfl); exact hi
  | setHeartbeatMsgFunc i f => unfold State.step; dsimp only; split; exact inv_modify hi _ _ (fun _ => rfl) (fun _ => rfl); exact hi
  | setHeartbeatFunc i f => unfold State.step; dsimp only; split; exact inv_modify hi _ _ (fun _ => rfl) (fun _ => rfl); exact hi
  | bindRouter i m r => unfold State.step; dsimp only; split; exact inv_modify hi _ _ (fun _ => rfl) (fun _ => rfl); exact hi
  | bindRouterSlices i m hs =>
    unfold State.step State.bindRouterSlices
    dsimp only
    cases hc : st.checkers[i]? with
    | none => exact hi
    | some c =>
      dsimp only
      split
      · exact (inv_bindSlices hi spare hc m hs).1
      · exact hi
  | bindConn i c => exact inv_modify hi _ _ (fun _ => rfl) (fun _ => rfl)
  | clone i => exact inv_clone hi spare i

theorem inv_run (d : Defaults H) (spare : Nat → Nat) (ops : List (Op H)) : ∀ {st : State H}, Inv st → Inv (st.run d spare ops) := by
  induction ops with
  | nil => intro st h; exact h
  | cons o os ih => intro st h; exact ih (inv_step h d spare o)

end Zinx.HeartbeatConf
