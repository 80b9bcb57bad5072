import Verif.Model.Pipe
import Verif.Lemmas.Decoder
import Verif.Lemmas.Worker
import Verif.Model.Sys

/-! Lemmas about a connection from end to end. -/

namespace Zinx.Pipe

open Zinx

variable {S L : Type} {st : S → L → S → Prop} {wr : L → Bytes} {s0 : S} {k : Decoder.Kind} {b : Bool} {wid : Nat → Nat} {cap c : Nat}

/-- The part of the sender. -/
def sendTr (ls : List (Label L)) : List L := ls.filterMap fun | .send l => some l | _ => none

/-- The reads. -/
def readsOf (ls : List (Label L)) : List Bytes := ls.filterMap fun | .read x _ => some x | _ => none

/-- The part of the workers and of the reader, as in `Model/Worker.lean`. -/
def workTr (c : Nat) (ls : List (Label L)) : List Worker.Act := ls.filterMap fun | .work a => some a | .read _ rs => some (.arrive c rs) | _ => none

theorem receive_snoc {k : Decoder.Kind} : ∀ (reads : List Bytes) (d0 d : Frame.FrameDecoder) (x : Bytes) (ms ms' : List (Pack.Message × Option Decoder.Resp)) (st : Decoder.Status),
    Decoder.receive k d0 reads = (ms, .running d) → Decoder.receive k d [x] = (ms', st) → Decoder.receive k d0 (reads ++ [x]) = (ms ++ ms', st) := by
  intro reads
  induction reads with
  | nil =>
    intro d0 d x ms ms' st h1 h2
    simp only [Decoder.receive, Prod.mk.injEq, Decoder.Status.running.injEq] at h1
    obtain ⟨rfl, rfl⟩ := h1
    exact h2
  | cons r rs ih =>
    intro d0 d x ms ms' st h1 h2
    rw [List.cons_append]
    rw [Decoder.receive] at h1 ⊢
    cases hdec : Frame.Decode d0 r with
    | panic p => rw [hdec] at h1; cases h1
    | hang => rw [hdec] at h1; cases h1
    | ret fs d' =>
      rw [hdec] at h1
      dsimp only at h1 ⊢
      generalize Decoder.deliver k fs = del at h1 ⊢
      obtain ⟨ms0, e0⟩ := del
      cases e0 with
      | some p => cases h1
      | none =>
        cases hrec : Decoder.receive k d' rs with
        | mk ms1 st1 =>
          rw [hrec] at h1
          dsimp only at h1 ⊢
          cases h1
          rw [ih d' d x ms1 ms' st hrec h2]
          simp

theorem requests_append (c a m n : Nat) : requests c a (m + n) = requests c a m ++ requests c (a + m) n := by
  unfold requests
  rw [List.range_add, List.map_append, List.map_map]
  congr 1
  apply List.map_congr_left
  intro j _
  simp [Nat.add_assoc]

structure Inv (st : S → L → S → Prop) (wr : L → Bytes) (s0 : S) (k : Decoder.Kind) (b : Bool) (wid : Nat → Nat) (cap c : Nat) (ls : List (Label L)) (s : State S) : Prop where
  snd : Steps st s0 (sendTr ls) s.snd
  wk : Steps (Worker.Step b wid cap) (Worker.initial fun _ => []) (workTr c ls) s.wk
  flight : (readsOf ls).flatten ++ s.flight = (sendTr ls).flatMap wr
  rcv : Decoder.receiveNew k (readsOf ls) = (s.msgs, s.rcv)
  arrived : Worker.arrivedAt c (workTr c ls) = requests c 0 s.msgs.length

theorem inv {ls : List (Label L)} {s : State S} (h : Steps (Step st wr k b wid cap c) (init s0 k) ls s) :
    Inv st wr s0 k b wid cap c ls s := by
  refine h.invariant_trace (P := fun ls s => Inv st wr s0 k b wid cap c ls s) ?_ ⟨.nil _, .nil _, rfl, rfl, rfl⟩
  intro ls s l t ⟨h1, h2, h3, h4, h5⟩ hs
  cases hs with
  | send l t h =>
    refine ⟨?_, ?_, ?_, ?_, ?_⟩ <;> simp only [sendTr, workTr, readsOf, List.filterMap_append, List.filterMap_cons, List.filterMap_nil, List.append_nil] at *
    · exact h1.snoc h
    · exact h2
    · rw [List.flatMap_append, ← h3, List.append_assoc]; simp
    · exact h4
    · exact h5
  | read x y d ms sta hx hf hd hr t hw =>
    refine ⟨?_, ?_, ?_, ?_, ?_⟩ <;> simp only [sendTr, workTr, readsOf, List.filterMap_append, List.filterMap_cons, List.filterMap_nil, List.append_nil] at *
    · exact h1
    · exact h2.snoc hw
    · rw [← h3, hf, List.flatten_append]; simp
    · rw [hd] at h4
      exact receive_snoc _ _ _ _ _ _ _ h4 hr
    · unfold Worker.arrivedAt at *
      rw [List.flatMap_append, h5]
      simp only [List.flatMap_cons, List.flatMap_nil, if_true, List.append_nil, List.length_append]
      rw [requests_append, Nat.zero_add]
  | work a ha t h =>
    refine ⟨?_, ?_, ?_, ?_, ?_⟩ <;> simp only [sendTr, workTr, readsOf, List.filterMap_append, List.filterMap_cons, List.filterMap_nil, List.append_nil] at *
    · exact h1
    · exact h2.snoc h
    · exact h3
    · exact h4
    · unfold Worker.arrivedAt at *
      rw [List.flatMap_append, h5]
      cases a with
      | arrive c' rs =>
        by_cases e : c' = c
        · subst e; exact absurd rfl (ha rs)
        · simp [e]
      | _ => simp

end Zinx.Pipe
