import Verif.Model.RawRead

/-! # C67: payloads without a frame decoder -/

namespace Zinx.Props
open Zinx Zinx.RawRead

/-- The bytes of the reads, in order. -/
def arrived : List RawRead.Label → List RawRead.Bytes
  | [] => []
  | .read x :: ls => x :: arrived ls
  | _ :: ls => arrived ls

theorem arrived_append (a b : List RawRead.Label) : arrived (a ++ b) = arrived a ++ arrived b := by
  induction a with
  | nil => rfl
  | cons l a ih => cases l <;> simp [arrived, ih]

theorem take_fill (old x : RawRead.Bytes) : (fill old x).take x.length = x := by simp [fill]

structure RawInv (ls : List RawRead.Label) (s : RawRead.State) : Prop where
  reads : s.reads = (arrived ls).length
  lt : ∀ m, m ∈ s.pending → m.read < s.reads ∧ m.buf = m.read
  mem : ∀ m, m ∈ s.pending → (arrived ls)[m.read]? = some ((s.mem m.buf).take m.len)
  done : ∀ k p, .handle k p ∈ ls → (arrived ls)[k]? = some p

theorem rawInv_step {kind ls s l t} (hk : kind ≠ .tcp) (h : RawInv ls s) (hs : RawRead.Step kind s l t) : RawInv (ls ++ [l]) t := by
  obtain ⟨h1, h2, h3, h4⟩ := h
  have hb : ∀ k, bufOf kind k = k := by intro k; cases kind <;> first | rfl | exact absurd rfl hk
  have app : ∀ (k : Nat) (p : RawRead.Bytes) (xs : List RawRead.Bytes), (arrived ls)[k]? = some p → (arrived ls ++ xs)[k]? = some p := by
    intro k p xs h
    rw [List.getElem?_append_left]
    · exact h
    · exact (List.getElem?_eq_some_iff.mp h).1
  cases hs with
  | read x =>
    refine ⟨?_, ?_, ?_, ?_⟩
    · simp only [arrived_append, arrived, List.length_append, List.length_cons, List.length_nil, h1]
    · intro m hm
      rw [List.mem_append, List.mem_singleton] at hm
      rcases hm with hm | rfl
      · exact ⟨Nat.lt_succ_of_lt (h2 m hm).1, (h2 m hm).2⟩
      · exact ⟨Nat.lt_succ_self _, hb _⟩
    · intro m hm
      rw [arrived_append]
      rw [List.mem_append, List.mem_singleton] at hm
      rcases hm with hm | rfl
      · have hne : m.buf ≠ bufOf kind s.reads := by
          rw [hb, (h2 m hm).2]
          have := (h2 m hm).1
          omega
        simp only [hne, if_false]
        exact app _ _ _ (h3 m hm)
      · simp only [if_true, take_fill]
        rw [h1, List.getElem?_append_right (Nat.le_refl _), Nat.sub_self]
        rfl
    · intro k p hm
      rw [arrived_append]
      rw [List.mem_append, List.mem_singleton] at hm
      rcases hm with hm | hm
      · exact app _ _ _ (h4 k p hm)
      · cases hm
  | handle m hm =>
    have e : arrived (ls ++ [.handle m.read ((s.mem m.buf).take m.len)]) = arrived ls := by rw [arrived_append]; simp [arrived]
    refine ⟨by rw [e]; exact h1, fun x hx => h2 x (List.mem_of_mem_erase hx), fun x hx => by rw [e]; exact h3 x (List.mem_of_mem_erase hx), ?_⟩
    intro k p hx
    rw [e]
    rw [List.mem_append, List.mem_singleton] at hx
    rcases hx with hx | hx
    · exact h4 k p hx
    · cases hx
      exact h3 m hm

/-- **C67** for KCP and WebSocket connections: whenever its handler runs, it sees the bytes that arrived in its read. -/
theorem C67_fresh_partial (kind : Kind) (hk : kind ≠ .tcp) (ls : List RawRead.Label) (t : RawRead.State) (h : Steps (RawRead.Step kind) {} ls t) (k : Nat) (p : RawRead.Bytes)
    (hm : .handle k p ∈ ls) : (arrived ls)[k]? = some p :=
  (h.invariant_trace (P := RawInv) (fun _ _ _ _ h hs => rawInv_step hk h hs) ⟨rfl, nofun, nofun, nofun⟩).done k p hm

/-- Two reads, handled later and in the other order. -/
example : ∃ t, Steps (RawRead.Step .kcp) {} [.read [1, 2], .read [3], .handle 1 [3], .handle 0 [1, 2]] t :=
  ⟨_, .cons (.read _ [1, 2]) (.cons (.read _ [3]) (.cons (.handle _ ⟨1, 1, 1⟩ (by decide)) (.cons (.handle _ ⟨0, 0, 2⟩ (by decide)) (.nil _))))⟩

/-- **C67** is false for TCP connections: all reads go into one buffer, so a message handled after the next read has the bytes of that one. -/
theorem C67_refuted : ∃ ls t, Steps (RawRead.Step .tcp) {} ls t ∧ arrived ls = [[1, 2], [3]] ∧ .handle 0 [3, 2] ∈ ls :=
  ⟨[.read [1, 2], .read [3], .handle 0 [3, 2]], _, .cons (.read _ [1, 2]) (.cons (.read _ [3]) (.cons (.handle _ ⟨0, 0, 2⟩ (by decide)) (.nil _))), rfl, by decide⟩

/-- The reader waits for the handlers: it reads only when no message is pending. -/
def readsIdle (s : RawRead.State) (l : RawRead.Label) : Prop := ∀ x, l = .read x → s.pending = []

structure IdleInv (ls : List RawRead.Label) (s : RawRead.State) : Prop where
  reads : s.reads = (arrived ls).length
  mem : ∀ m, m ∈ s.pending → (arrived ls)[m.read]? = some ((s.mem m.buf).take m.len)
  done : ∀ k p, .handle k p ∈ ls → (arrived ls)[k]? = some p

/-- **C67** for TCP connections, in part: if each message has been handled before the next read, the handlers see the bytes of their reads. -/
theorem C67_tcp_partial (kind : Kind) (ls : List RawRead.Label) (t : RawRead.State) (h : Steps (fun s l t => RawRead.Step kind s l t ∧ readsIdle s l) {} ls t) (k : Nat) (p : RawRead.Bytes)
    (hm : .handle k p ∈ ls) : (arrived ls)[k]? = some p := by
  refine (h.invariant_trace (P := IdleInv) ?_ ⟨rfl, nofun, nofun⟩).done k p hm
  intro ls s l t ⟨h1, h3, h4⟩ ⟨hs, hid⟩
  cases hs with
  | read x =>
    have hp := hid x rfl
    refine ⟨?_, ?_, ?_⟩
    · simp only [arrived_append, arrived, List.length_append, List.length_cons, List.length_nil, h1]
    · intro m hm
      dsimp only at hm
      rw [hp, List.nil_append, List.mem_singleton] at hm
      subst hm
      simp only [if_true, take_fill]
      rw [arrived_append, h1, List.getElem?_append_right (Nat.le_refl _), Nat.sub_self]
      rfl
    · intro k p hx
      rw [List.mem_append, List.mem_singleton] at hx
      rcases hx with hx | hx
      · have := h4 k p hx
        rw [arrived_append, List.getElem?_append_left]
        · exact this
        · exact (List.getElem?_eq_some_iff.mp this).1
      · cases hx
  | handle m hm =>
    have e : arrived (ls ++ [.handle m.read ((s.mem m.buf).take m.len)]) = arrived ls := by rw [arrived_append]; simp [arrived]
    refine ⟨by rw [e]; exact h1, fun x hx => by rw [e]; exact h3 x (List.mem_of_mem_erase hx), ?_⟩
    intro k p hx
    rw [e]
    rw [List.mem_append, List.mem_singleton] at hx
    rcases hx with hx | hx
    · exact h4 k p hx
    · cases hx
      exact h3 m hm

/-- Two reads, each handled at once. -/
example : ∃ t, Steps (fun s l t => RawRead.Step .tcp s l t ∧ readsIdle s l) {} [.read [1, 2], .handle 0 [1, 2], .read [3], .handle 1 [3]] t :=
  ⟨_, .cons ⟨.read _ [1, 2], fun _ _ => rfl⟩ (.cons ⟨.handle _ ⟨0, 0, 2⟩ (by decide), nofun⟩ (.cons ⟨.read _ [3], fun _ _ => rfl⟩ (.cons ⟨.handle _ ⟨1, 0, 1⟩ (by decide), nofun⟩ (.nil _))))⟩

end Zinx.Props
