import Verif.Props.Rpc
import Verif.Lemmas.ExecOf

/-! # C105: the client handles every reply once -/

namespace Zinx.Props

open Zinx Zinx.Rpc

/-- How often the client has begun, and ended, to handle its message `j`. -/
def begunReply (j : Nat) (ls : List Rpc.Label) : Nat := ls.countP fun | .begins i => i = j | _ => false

def endedReply (j : Nat) (ls : List Rpc.Label) : Nat := ls.countP fun | .ends i => i = j | _ => false

section
variable {cc bc : Nat} {k : Decoder.Kind} {b : Bool} {wid : Nat → Nat} {cap c : Nat} {direct : Bool} {f : Nat → Msg → Option Msg}

theorem count_range' (a n j : Nat) : (List.range' a n).count j = if a ≤ j ∧ j < a + n then 1 else 0 := by
  induction n generalizing a with
  | zero => simp
  | succ n ih =>
    rw [List.range'_succ, List.count_cons, ih]
    simp only [beq_iff_eq]
    split <;> split <;> (try split) <;> omega

/-- What is to be handled, is being handled and has been handled. -/
theorem reply_counts {ls : List Rpc.Label} {s : Rpc.State} (h : Steps (Rpc.Step cc bc k b wid cap c direct f) (Rpc.init k) ls s) (j : Nat) :
    begunReply j ls + s.fresh.count j = (if j < s.msgs.length then 1 else 0) ∧ endedReply j ls + s.running.count j = begunReply j ls := by
  refine h.invariant_trace (P := fun ls s => begunReply j ls + s.fresh.count j = (if j < s.msgs.length then 1 else 0) ∧ endedReply j ls + s.running.count j = begunReply j ls) ?_ ?_
  · intro ls s l t ⟨h1, h2⟩ hs
    have e1 : begunReply j (ls ++ [l]) = begunReply j ls + begunReply j [l] := by simp [begunReply, List.countP_append]
    have e2 : endedReply j (ls ++ [l]) = endedReply j ls + endedReply j [l] := by simp [endedReply, List.countP_append]
    rw [e1, e2]
    cases hs with
    | read x y d ms sta =>
      simp only [begunReply, endedReply, List.countP_singleton, List.count_append, count_range', List.length_append] at *
      refine ⟨?_, by simpa using h2⟩
      simp only [Bool.false_eq_true, if_false]
      split at h1 <;> split <;> split <;> omega
    | begins i hi =>
      have h0 : 0 < s.fresh.count i := List.count_pos_iff.2 hi
      by_cases e : i = j
      · subst e
        have e1 : begunReply i [.begins i] = 1 := by simp [begunReply]
        have e2 : endedReply i [.begins i] = 0 := by simp [endedReply]
        rw [e1, e2, List.count_erase_self, List.count_append, List.count_singleton_self]
        constructor
        · rw [← h1]; omega
        · omega
      · have e1 : begunReply j [.begins i] = 0 := by simp [begunReply, e]
        have e2 : endedReply j [.begins i] = 0 := by simp [endedReply]
        rw [e1, e2, List.count_erase_of_ne (fun h => e h.symm), List.count_append, List.count_eq_zero_of_not_mem (l := [i]) (by simpa using fun h => e h.symm)]
        exact ⟨h1, h2⟩
    | ends i hi =>
      have h0 : 0 < s.running.count i := List.count_pos_iff.2 hi
      by_cases e : i = j
      · subst e
        have e1 : begunReply i [.ends i] = 0 := by simp [begunReply]
        have e2 : endedReply i [.ends i] = 1 := by simp [endedReply]
        rw [e1, e2, List.count_erase_self]
        exact ⟨h1, by omega⟩
      · have e1 : begunReply j [.ends i] = 0 := by simp [begunReply]
        have e2 : endedReply j [.ends i] = 0 := by simp [endedReply, e]
        rw [e1, e2, List.count_erase_of_ne (fun h => e h.symm)]
        exact ⟨h1, h2⟩
    | _ => exact ⟨by simpa [begunReply] using h1, by simpa [begunReply, endedReply] using h2⟩
  · simp [begunReply, endedReply, Rpc.init]

/-- **C105**: the client handles a message at most once, and only messages it has received; it ends handling only what it has begun. -/
theorem C105_once {ls : List Rpc.Label} {s : Rpc.State} (h : Steps (Rpc.Step cc bc k b wid cap c direct f) (Rpc.init k) ls s) (j : Nat) :
    begunReply j ls ≤ 1 ∧ endedReply j ls ≤ begunReply j ls ∧ (0 < begunReply j ls → j < s.msgs.length) := by
  obtain ⟨h1, h2⟩ := reply_counts h j
  split at h1 <;> exact ⟨by omega, by omega, by omega⟩

/-- **C105**: every goroutine the client has started for a message gets its turn, if goroutines that can go on do so and the handler of the message returns. -/
theorem C105_handled (e : Exec (Rpc.Step cc bc k b wid cap c direct f)) (h0 : e.run 0 = Rpc.init k) (j n : Nat) (hj : j < (e.run n).msgs.length) (hb : e.WeakFair (· = .begins j)) (he : e.WeakFair (· = .ends j)) :
    ∃ m, n ≤ m ∧ begunReply j (e.trace m) = 1 ∧ endedReply j (e.trace m) = 1 := by
  have hst : ∀ n, Steps (Rpc.Step cc bc k b wid cap c direct f) (Rpc.init k) (e.trace n) (e.run n) := fun n => h0 ▸ e.steps n
  have grow : ∀ s l t, Rpc.Step cc bc k b wid cap c direct f s l t → s.msgs.length ≤ t.msgs.length := by
    intro s l t hs
    cases hs <;> simp
  have hlen : ∀ m, n ≤ m → j < (e.run m).msgs.length := e.invariant (P := fun s => j < s.msgs.length) (fun s l t h hs => Nat.lt_of_lt_of_le h (grow s l t hs)) hj
  have key1 : ∃ m, n ≤ m ∧ j ∉ (e.run m).fresh := by
    apply Classical.byContradiction
    intro hno
    have hin : ∀ m, n ≤ m → j ∈ (e.run m).fresh := fun m hm => Classical.byContradiction fun h => hno ⟨m, hm, h⟩
    obtain ⟨m, l, hm, ha, rfl⟩ := hb n fun m hm => ⟨_, _, rfl, .begins _ j (hin m hm)⟩
    have h1 := (reply_counts (hst (m + 1)) j).1
    have h2 := List.count_pos_iff.2 (hin (m + 1) (by omega))
    have : 1 ≤ begunReply j (e.trace (m + 1)) := by
      unfold Exec.trace
      rw [ha]
      simp [begunReply, List.countP_append]
    split at h1 <;> omega
  obtain ⟨m, hm, hf⟩ := key1
  have hbeg : ∀ m', m ≤ m' → begunReply j (e.trace m') = 1 := by
    intro m' hm'
    have hfr : j ∉ (e.run m').fresh := by
      refine e.invariant (P := fun s => j ∉ s.fresh ∧ j < s.msgs.length) ?_ ⟨hf, hlen m hm⟩ m' hm' |>.1
      intro s l t ⟨h1, h2⟩ hs
      refine ⟨?_, Nat.lt_of_lt_of_le h2 (grow s l t hs)⟩
      cases hs with
      | read x y d ms sta =>
        simp only [List.mem_append, List.mem_range'_1, not_or]
        exact ⟨h1, by omega⟩
      | begins i hi => exact fun h => h1 (List.mem_of_mem_erase h)
      | _ => exact h1
    have h1 := (reply_counts (hst m') j).1
    rw [List.count_eq_zero_of_not_mem hfr, if_pos (hlen m' (by omega))] at h1
    exact h1
  apply Classical.byContradiction
  intro hno
  have hrun : ∀ m', m ≤ m' → j ∈ (e.run m').running := by
    intro m' hm'
    have h1 := hbeg m' hm'
    have h2 := (reply_counts (hst m') j).2
    apply Classical.byContradiction
    intro h
    rw [List.count_eq_zero_of_not_mem h] at h2
    exact hno ⟨m', by omega, h1, by omega⟩
  obtain ⟨m', l, hm', ha, rfl⟩ := he m fun m hm => ⟨_, _, rfl, .ends _ j (hrun m hm)⟩
  have h1 := (reply_counts (hst (m' + 1)) j).2
  have h2 := List.count_pos_iff.2 (hrun (m' + 1) (by omega))
  have h3 := hbeg (m' + 1) (by omega)
  have : 1 ≤ endedReply j (e.trace (m' + 1)) := by
    unfold Exec.trace
    rw [ha]
    simp [endedReply, List.countP_append]
  omega

end

/-- A client that has received two replies and handled the second. -/
example : ∃ e : Exec (Rpc.Step 1 16 .tlv false (fun c => c % 2) 2 3 true echo), e.run 0 = Rpc.init .tlv ∧ (∃ n, 1 < (e.run n).msgs.length) ∧ e.WeakFair (· = .begins 1) ∧ e.WeakFair (· = .ends 1) := by
  obtain ⟨s, hs, hm⟩ := C105_handling_refuted
  obtain ⟨e, h1, _, _, h4⟩ := Exec.ofSteps hs
  obtain ⟨c1, c2⟩ := reply_counts hs 1
  have hl : s.msgs.length = 2 := by simpa using congrArg List.length hm
  have b1 : begunReply 1 (rpcAsk ++ rpcAnswer ++ [.begins 1, .ends 1, .begins 0]) = 1 := rfl
  have b2 : endedReply 1 (rpcAsk ++ rpcAnswer ++ [.begins 1, .ends 1, .begins 0]) = 1 := rfl
  rw [b1, hl, if_pos (by omega)] at c1
  rw [b1, b2] at c2
  refine ⟨e, h1, ⟨(rpcAsk ++ rpcAnswer ++ [Rpc.Label.begins 1, .ends 1, .begins 0]).length, ?_⟩, Exec.weakFair_of_end h4 ?_, Exec.weakFair_of_end h4 ?_⟩
  · rw [h4 _ (Nat.le_refl _), hl]; omega
  · rintro ⟨_, t, rfl, hs⟩
    cases hs with
    | begins _ h => have := List.count_pos_iff.2 h; omega
  · rintro ⟨_, t, rfl, hs⟩
    cases hs with
    | ends _ h => have := List.count_pos_iff.2 h; omega

end Zinx.Props
