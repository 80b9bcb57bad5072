import Verif.Lemmas.Accept

/-! # C32 and C33: accepting connections -/

namespace Zinx.Props

open Zinx Zinx.ShardMap Zinx.ConnMgr Zinx.Accept

/-! ## C32 -/

/-- **C32.** In every execution, whatever listeners and request goroutines run, the first 2^64 connections get pairwise different IDs. -/
theorem C32_unique_ids {mode : Mode} {maxConn : Nat} {ls : List Act} {s : State} (h : Steps (Accept.Step mode maxConn) initial ls s)
    (hb : (ids ls).length ≤ 2 ^ 64) : (ids ls).Nodup := by
  rw [(ids_inv h).1]
  unfold List.Nodup
  rw [List.pairwise_map]
  refine (List.nodup_range (n := (ids ls).length)).imp_of_mem ?_
  intro a b ha hb' hne e
  rw [List.mem_range] at ha hb'
  have e := congrArg UInt64.toNat e
  rw [UInt64.toNat_ofNat', UInt64.toNat_ofNat'] at e
  apply hne
  omega

/-- **C32 (what is added).** A connection is added under the ID its goroutine was given: each `add` of an ID comes after that ID was given. -/
theorem C32_added_ids {mode : Mode} {maxConn : Nat} {ls : List Act} {s : State} (h : Steps (Accept.Step mode maxConn) initial ls s)
    {t : Nat} {id : UInt64} (ha : Act.add t id ∈ ls) : id ∈ ids ls := by
  have key : (∀ t id, s.thread t = .hasId id → id ∈ ids ls) ∧ ∀ t id, Act.add t id ∈ ls → id ∈ ids ls := by
    refine Steps.invariant_trace (P := fun ls (s : State) => (∀ t id, s.thread t = .hasId id → id ∈ ids ls) ∧
      ∀ t id, Act.add t id ∈ ls → id ∈ ids ls) ?_ h ⟨by intro t id h; simp [initial] at h, by simp⟩
    intro ls s l s' hp hst
    obtain ⟨h1, h2⟩ := hp
    rw [ids_append]
    have move : ∀ (x : Thread) (t0 : Nat), (∀ id, x = .hasId id → id ∈ ids ls ++ ids [l]) →
        ∀ t id, (s.goto t0 x).thread t = .hasId id → id ∈ ids ls ++ ids [l] := by
      intro x t0 hx t id ht
      unfold State.goto at ht
      dsimp only at ht
      by_cases e : t = t0
      · rw [if_pos e] at ht; exact hx id ht
      · rw [if_neg e] at ht; exact List.mem_append_left _ (h1 t id ht)
    refine ⟨?_, ?_⟩
    · cases hst with
      | newId t ht => exact move (.hasId (s.cID + 1)) t (by intro id e; cases e; exact List.mem_append_right _ (by simp [ids]))
      | remove c => intro t id ht; exact List.mem_append_left _ (h1 t id ht)
      | add t id handle ht => exact move .idle t (by intro id e; cases e)
      | begin t _ _ => exact move _ t (by intro id e; cases e)
      | visit t _ _ _ _ => exact move _ t (by intro id e; cases e)
      | refuse t _ _ _ => exact move _ t (by intro id e; cases e)
      | pass t _ _ _ => exact move _ t (by intro id e; cases e)
      | fail t _ => exact move _ t (by intro id e; cases e)
    · intro t id hm
      rw [List.mem_append] at hm
      rcases hm with hm | hm
      · exact List.mem_append_left _ (h2 t id hm)
      · rw [List.mem_singleton] at hm
        subst hm
        cases hst with
        | add t id handle ht => exact List.mem_append_left _ (h1 t id ht)
  exact key.2 t id ha

/-- Two goroutines pass the check one after the other and then both add their connection. -/
theorem two_at_once (mode : Mode) (h1 : mode.runs 1) (h2 : mode.runs 2) :
    ∃ ls s, Steps (Accept.Step mode 1) initial ls s ∧ ids ls = [1, 2] ∧ s.map.count = 2 := by
  have c0 : newConnManager.count = 0 := by decide +kernel
  obtain ⟨la, ia, ha⟩ := passes (mode := mode) (maxConn := 1) initial 1 h1 rfl (by show newConnManager.count < 1; omega)
  obtain ⟨lb, ib, hb⟩ := passes (mode := mode) (maxConn := 1) (initial.goto 1 .passed) 2 h2 rfl (by show newConnManager.count < 1; omega)
  refine ⟨_, _, (ha.append hb).append
    (.cons (.newId _ 1 (by simp [State.goto])) (.cons (.newId _ 2 (by simp [State.goto]))
    (.cons (.add _ 1 1 0 rfl) (.cons (.add _ 2 2 1 rfl) (.nil _))))), ?_, ?_⟩
  · rw [ids_append, ids_append, ia, ib]
    rfl
  · have i1 : Conn.idStr ⟨0, 1⟩ = [49] := by unfold Conn.idStr formatUint; rfl
    have i2 : Conn.idStr ⟨1, 2⟩ = [50] := by unfold Conn.idStr formatUint; rfl
    show ((newConnManager.set (Conn.idStr ⟨0, 1⟩) ⟨0, 1⟩).set (Conn.idStr ⟨1, 2⟩) ⟨1, 2⟩).count = 2
    rw [i1, i2]
    decide +kernel

/-- Concurrent WebSocket requests meet the hypotheses of C32. -/
example : ∃ ls s, Steps (Accept.Step .websocket 1) initial ls s ∧ (ids ls).length ≤ 2 ^ 64 ∧ ids ls = [1, 2] := by
  obtain ⟨ls, s, h, e, _⟩ := two_at_once .websocket (by simp [Mode.runs]) (by simp [Mode.runs])
  exact ⟨ls, s, h, by rw [e]; decide, e⟩

/-! ## C33 -/

/-- **C33 (one listener).** With TCP only or KCP only, at every moment of every execution at most `maxConn` connections are in the manager,
although `Len` reads the shards one after the other while connections leave. Not proved, since false: WebSocket and the mixed mode. -/
theorem C33_partial {mode : Mode} (hm : mode = .tcp ∨ mode = .kcp) {maxConn : Nat} {ls : List Act} {s : State}
    (h : Steps (Accept.Step mode maxConn) initial ls s) : Spec.ShardMap.HasSize (byId s.map) s.map.count ∧ s.map.count ≤ maxConn := by
  have hr : ∀ t, mode.runs t → t = 0 := by
    intro t ht
    rcases hm with rfl | rfl <;> exact ht
  obtain ⟨w, f, _⟩ := single_inv hr h
  refine ⟨?_, fits_le f⟩
  have dec : DecKeys s.map := by
    have : Wf s.map ∧ DecKeys s.map := by
      refine Steps.invariant (P := fun s : State => Wf s.map ∧ DecKeys s.map) ?_ h ⟨mwf_new.wf, mwf_new.dec⟩
      intro s l s' hp hst
      cases hst with
      | add t id handle ht => exact ⟨set_wf hp.1 _ _, set_decKeys hp.1 hp.2 id _⟩
      | remove c => exact ⟨remove_wf hp.1 _, remove_decKeys hp.1 hp.2 c.id⟩
      | _ => exact hp
    exact this.2
  exact size_byId w dec

/-- An execution of the TCP listener that fills the server. -/
example : ∃ ls s, Steps (Accept.Step .tcp 1) initial ls s ∧ s.map.count = 1 := by
  have c0 : newConnManager.count = 0 := by decide +kernel
  obtain ⟨la, ia, ha⟩ := passes (mode := .tcp) (maxConn := 1) initial 0 rfl rfl (by show newConnManager.count < 1; omega)
  refine ⟨_, _, ha.append (.cons (.newId _ 0 (by simp [State.goto])) (.cons (.add _ 0 1 0 rfl) (.nil _))), ?_⟩
  have i1 : Conn.idStr ⟨0, 1⟩ = [49] := by unfold Conn.idStr formatUint; rfl
  show (newConnManager.set (Conn.idStr ⟨0, 1⟩) ⟨0, 1⟩).count = 1
  rw [i1]
  decide +kernel

/-- **C33 refuted.** In WebSocket mode and in the mode with both listeners, two requests checked concurrently exceed the maximum of 1. -/
theorem C33_refuted : (∃ ls s, Steps (Accept.Step .websocket 1) initial ls s ∧ s.map.count = 2) ∧
    ∃ ls s, Steps (Accept.Step .both 1) initial ls s ∧ s.map.count = 2 := by
  obtain ⟨ls, s, h, _, e⟩ := two_at_once .websocket (by simp [Mode.runs]) (by simp [Mode.runs])
  obtain ⟨ls', s', h', _, e'⟩ := two_at_once .both trivial trivial
  exact ⟨⟨ls, s, h, e⟩, ls', s', h', e'⟩

end Zinx.Props
