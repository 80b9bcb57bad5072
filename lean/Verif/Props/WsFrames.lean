import Verif.Model.WsFrames
import Verif.Props.Wire
import Verif.Props.Alive

/-!
# C129, C130: WebSocket frames
-/

namespace Zinx.Props

open Zinx Zinx.Spec Zinx.Frame Zinx.Pack Zinx.Decoder

section C129
open Zinx.WsFrames

/-- The frames in which a client sends a message, as text or binary, in one or more pieces (RFC 6455, 5.4): the first frame bears the type, the others are continuations, the last one is marked. -/
def fragments (text : Bool) : List Bytes → List WsFrames.Frame
  | [] => []
  | [p] => [⟨true, if text then .text else .binary, p⟩]
  | p :: ps => ⟨false, if text then .text else .binary, p⟩ :: conts ps
where
  conts : List Bytes → List WsFrames.Frame
  | [] => []
  | [p] => [⟨true, .cont, p⟩]
  | p :: ps => ⟨false, .cont, p⟩ :: conts ps

/-- Pings and pongs as the protocol allows them. -/
def KeepAlive (f : WsFrames.Frame) : Prop := (f.op = .ping ∨ f.op = .pong) ∧ f.fin = true ∧ f.payload.length ≤ 125

instance (f : WsFrames.Frame) : Decidable (KeepAlive f) := inferInstanceAs (Decidable (_ ∧ _))

/-- `fs` are the frames `ds` with pings and pongs put in anywhere. -/
inductive WithPings : List WsFrames.Frame → List WsFrames.Frame → Prop where
  | nil : WithPings [] []
  | keep {fs ds : List WsFrames.Frame} (f : WsFrames.Frame) : WithPings fs ds → WithPings (f :: fs) (f :: ds)
  | ping {fs ds : List WsFrames.Frame} (f : WsFrames.Frame) : KeepAlive f → WithPings fs ds → WithPings (f :: fs) ds

theorem onFrame_keepAlive {f : WsFrames.Frame} (h : KeepAlive f) (o : Option Bytes) : onFrame o f = .wait o := by
  obtain ⟨h1, h2⟩ := h
  unfold onFrame
  rcases h1 with h1 | h1 <;> rw [h1] <;> exact if_pos h2

theorem read_withPings {fs ds : List WsFrames.Frame} (h : WithPings fs ds) : ∀ o, readMessages o fs = readMessages o ds := by
  induction h with
  | nil => intro o; rfl
  | keep f _ ih =>
    intro o
    unfold readMessages
    cases onFrame o f with
    | wait b => exact ih b
    | message b => dsimp only; rw [ih none]
    | fail => rfl
  | ping f hf _ ih =>
    intro o
    rw [readMessages, onFrame_keepAlive hf o]
    exact ih o

theorem read_conts : ∀ (ps : List Bytes) (b : Bytes) (rest : List WsFrames.Frame), ps ≠ [] →
    readMessages (some b) (fragments.conts ps ++ rest) = ((b ++ ps.flatten) :: (readMessages none rest).1, (readMessages none rest).2)
  | [], _, _, h => absurd rfl h
  | [p], b, rest, _ => by
    rw [fragments.conts, List.singleton_append, readMessages]
    simp only [onFrame, if_true, List.flatten_cons, List.flatten_nil, List.append_nil]
  | p :: q :: ps, b, rest, _ => by
    rw [fragments.conts, List.cons_append, readMessages]
    simp only [onFrame, Bool.false_eq_true, if_false]
    rw [read_conts (q :: ps) (b ++ p) rest (by simp), List.append_assoc]
    · rfl
    · intro h; cases h

theorem read_fragments (text : Bool) (ps : List Bytes) (hp : ps ≠ []) (rest : List WsFrames.Frame) :
    readMessages none (fragments text ps ++ rest) = (ps.flatten :: (readMessages none rest).1, (readMessages none rest).2) := by
  match ps, hp with
  | [p], _ =>
    rw [fragments, List.singleton_append, readMessages]
    cases text <;> simp [onFrame]
  | p :: q :: ps, _ =>
    rw [fragments, List.cons_append, readMessages]
    · have := read_conts (q :: ps) p rest (by simp)
      cases text <;> simp only [onFrame, Bool.false_eq_true, if_false, if_true] <;> rw [this] <;> rfl
    · intro h; cases h

/-- The beginning of a message: some but not all of its frames. -/
theorem read_prefix (text : Bool) (ps : List Bytes) (pre post : List WsFrames.Frame) (he : fragments text ps = pre ++ post) (hp : post ≠ []) :
    ∃ o, readMessages none pre = ([], some o) := by
  have hc : ∀ (ps : List Bytes) (b : Bytes) (pre : List WsFrames.Frame), fragments.conts ps = pre ++ post → ∃ o, readMessages (some b) pre = ([], some o) := by
    intro ps
    induction ps with
    | nil =>
      intro b pre e
      rw [fragments.conts] at e
      obtain ⟨rfl, _⟩ := List.append_eq_nil_iff.1 e.symm
      exact ⟨_, rfl⟩
    | cons p ps ih =>
      intro b pre e
      cases pre with
      | nil => exact ⟨_, rfl⟩
      | cons f pre =>
        cases ps with
        | nil =>
          rw [fragments.conts, List.cons_append] at e
          injection e with _ e
          exact absurd (List.append_eq_nil_iff.1 e.symm).2 hp
        | cons q ps =>
          rw [fragments.conts, List.cons_append] at e
          · injection e with e1 e2
            subst e1
            rw [readMessages]
            simp only [onFrame, Bool.false_eq_true, if_false]
            exact ih (b ++ p) pre e2
          · intro h; cases h
  cases pre with
  | nil => exact ⟨_, rfl⟩
  | cons f pre =>
    match ps, he with
    | [], he => rw [fragments] at he; cases he
    | [p], he =>
      rw [fragments, List.cons_append] at he
      injection he with _ e
      exact absurd (List.append_eq_nil_iff.1 e.symm).2 hp
    | p :: q :: ps, he =>
      rw [fragments, List.cons_append] at he
      · injection he with e1 e2
        subst e1
        rw [readMessages]
        cases text <;> simp only [onFrame, Bool.false_eq_true, if_false, if_true] <;> exact hc (q :: ps) p pre e2
      · intro h; cases h

/-- **C129 (frames).** The client sends WebSocket messages, each as text or binary and in any number of frames, then perhaps a part of the frames of another one, with pings and pongs anywhere in between: the
reader gets exactly the messages, in order, and waits for more. -/
theorem C129_messages (msgs : List (Bool × List Bytes)) (hne : ∀ m ∈ msgs, m.2 ≠ []) (text : Bool) (ps : List Bytes) (pre post : List WsFrames.Frame)
    (he : fragments text ps = pre ++ post) (hpost : post ≠ []) (fs : List WsFrames.Frame)
    (hfs : WithPings fs ((msgs.map fun m => fragments m.1 m.2).flatten ++ pre)) :
    (readMessages none fs).1 = msgs.map (·.2.flatten) ∧ (readMessages none fs).2 ≠ none := by
  rw [read_withPings hfs none]
  clear hfs
  induction msgs with
  | nil =>
    obtain ⟨o, h⟩ := read_prefix text ps pre post he hpost
    simp only [List.map_nil, List.flatten_nil, List.nil_append]
    rw [h]
    exact ⟨rfl, nofun⟩
  | cons m msgs ih =>
    rw [List.map_cons, List.flatten_cons, List.append_assoc, read_fragments m.1 m.2 (hne m (List.mem_cons_self ..))]
    obtain ⟨h1, h2⟩ := ih fun x hx => hne x (List.mem_cons_of_mem _ hx)
    exact ⟨by rw [List.map_cons, h1], h2⟩

/-- **C129 (TLV).** A client may cut the stream of its packed messages into WebSocket messages wherever it likes, and these into frames, and send pings in between: the router is given exactly its messages. -/
theorem C129_tlv (sent : List (UInt32 × Bytes)) (hs : ∀ m ∈ sent, m.2.length < 2 ^ 32 - 8) (next : UInt32 × Bytes) (hn : next.2.length < 2 ^ 32) (p q : Bytes)
    (hp : packTlv (newMsgPackage next.1 next.2) = p ++ q) (hq : q ≠ [])
    (msgs : List (Bool × List Bytes)) (hne : ∀ m ∈ msgs, m.2 ≠ []) (hcut : (msgs.map (·.2.flatten)).flatten = (sent.map fun m => packTlv (newMsgPackage m.1 m.2)).flatten ++ p)
    (text : Bool) (ps : List Bytes) (pre post : List WsFrames.Frame) (he : fragments text ps = pre ++ post) (hpost : post ≠ []) (fs : List WsFrames.Frame)
    (hfs : WithPings fs ((msgs.map fun m => fragments m.1 m.2).flatten ++ pre)) :
    (receiveNew .tlv (readMessages none fs).1).1.map (fun r => (r.1.id, r.1.data)) = sent ∧ (∃ d, (receiveNew .tlv (readMessages none fs).1).2 = .running d) ∧ (readMessages none fs).2 ≠ none := by
  obtain ⟨h1, h2⟩ := C129_messages msgs hne text ps pre post he hpost fs hfs
  obtain ⟨h3, _, h4⟩ := C11_tlv_end_to_end sent hs next hn p q hp hq (readMessages none fs).1 (by rw [h1]; exact hcut)
  exact ⟨h3, h4, h2⟩

/-- **C129 (LTV).** The same with the little-endian format. -/
theorem C129_ltv (sent : List (UInt32 × Bytes)) (hs : ∀ m ∈ sent, m.2.length < 2 ^ 32 - 8) (next : UInt32 × Bytes) (hn : next.2.length < 2 ^ 32) (p q : Bytes)
    (hp : packLtv (newMsgPackage next.1 next.2) = p ++ q) (hq : q ≠ [])
    (msgs : List (Bool × List Bytes)) (hne : ∀ m ∈ msgs, m.2 ≠ []) (hcut : (msgs.map (·.2.flatten)).flatten = (sent.map fun m => packLtv (newMsgPackage m.1 m.2)).flatten ++ p)
    (text : Bool) (ps : List Bytes) (pre post : List WsFrames.Frame) (he : fragments text ps = pre ++ post) (hpost : post ≠ []) (fs : List WsFrames.Frame)
    (hfs : WithPings fs ((msgs.map fun m => fragments m.1 m.2).flatten ++ pre)) :
    (receiveNew .ltv (readMessages none fs).1).1.map (fun r => (r.1.id, r.1.data)) = sent ∧ (∃ d, (receiveNew .ltv (readMessages none fs).1).2 = .running d) ∧ (readMessages none fs).2 ≠ none := by
  obtain ⟨h1, h2⟩ := C129_messages msgs hne text ps pre post he hpost fs hfs
  obtain ⟨h3, _, h4⟩ := C12_ltv_end_to_end sent hs next hn p q hp hq (readMessages none fs).1 (by rw [h1]; exact hcut)
  exact ⟨h3, h4, h2⟩

/-- **C129 (raw).** Without a frame decoder and without a decoder each WebSocket message becomes one message of the router, however it was cut into frames. -/
theorem C129_raw (msgs : List (Bool × List Bytes)) (hne : ∀ m ∈ msgs, m.2 ≠ []) (text : Bool) (ps : List Bytes) (pre post : List WsFrames.Frame)
    (he : fragments text ps = pre ++ post) (hpost : post ≠ []) (fs : List WsFrames.Frame) (hfs : WithPings fs ((msgs.map fun m => fragments m.1 m.2).flatten ++ pre)) :
    (deliverRaw none (readMessages none fs).1).1.map (fun r => (r.1.id, r.1.data)) = msgs.map fun m => (0, m.2.flatten) := by
  rw [(C129_messages msgs hne text ps pre post he hpost fs hfs).1, deliverRaw]
  simp only [List.map_map]
  rfl

/-- Two messages, the first in three frames with a ping inside, then the beginning of a third one. -/
def frameExample : List WsFrames.Frame :=
  [⟨false, .binary, [0, 0, 0, 1]⟩, ⟨true, .ping, [7]⟩, ⟨false, .cont, []⟩, ⟨true, .cont, [0, 0, 0, 2, 65]⟩, ⟨true, .pong, []⟩, ⟨true, .text, [66]⟩, ⟨false, .binary, [0]⟩]

example : WithPings frameExample ((([(false, [[0, 0, 0, 1], [], [0, 0, 0, 2, 65]]), (true, [[66]])] : List (Bool × List Bytes)).map fun m => fragments m.1 m.2).flatten ++ [⟨false, .binary, [0]⟩]) ∧
    fragments false [[0], [1]] = [⟨false, .binary, [0]⟩] ++ [⟨true, .cont, [1]⟩] ∧
    (receiveNew .tlv (readMessages none frameExample).1).1.map (fun r => (r.1.id, r.1.data)) = [(1, [65, 66])] :=
  ⟨.keep _ (.ping _ (by decide) (.keep _ (.keep _ (.ping _ (by decide) (.keep _ (.keep _ .nil)))))), rfl, by decide +kernel⟩

end C129

section C130
open Zinx.WsFrames

/-- The time that passes in a sequence of actions. -/
def wsTime (ls : List WsFrames.Label) : Int := (ls.map fun | .advance d => (d : Int) | _ => 0).sum

/-- The action notes a message that is not empty, or the start of the connection. -/
def wsNotes : WsFrames.Label → Bool
  | .note n => decide (0 < n)
  | .start => true
  | _ => false

/-- The time since the last of these actions; `none` if there was none. -/
def wsSilent (ls : List WsFrames.Label) : Option Int :=
  if ls.any wsNotes then some (wsTime (ls.reverse.takeWhile fun l => !wsNotes l)) else none

theorem wsSilent_notes (ls : List WsFrames.Label) {l : WsFrames.Label} (h : wsNotes l = true) : wsSilent (ls ++ [l]) = some 0 := by
  unfold wsSilent
  rw [List.any_append, List.reverse_append]
  simp [h, wsTime]

theorem wsSilent_other (ls : List WsFrames.Label) {l : WsFrames.Label} (h : wsNotes l = false) : wsSilent (ls ++ [l]) = (wsSilent ls).map (· + wsTime [l]) := by
  unfold wsSilent
  rw [List.any_append, List.reverse_append, List.reverse_singleton, List.singleton_append, List.takeWhile_cons]
  have h1 : (ls.any wsNotes || [l].any wsNotes) = ls.any wsNotes := by
    rw [List.any_cons, h, List.any_nil, Bool.or_false, Bool.or_false]
  rw [h1, h]
  split
  · simp only [Bool.not_false, if_true, Option.map_some]
    congr 1
    simp only [wsTime, List.map_cons, List.sum_cons, List.map_nil, List.sum_nil]
    omega
  · rfl

theorem wsInv {hm : Int} {ls : List WsFrames.Label} {s : WsFrames.State} (h : Steps (WsFrames.Step hm) {} ls s) :
    wsSilent ls = s.last.map (fun t => s.now - t) ∧ (s.closed = true ↔ WsFrames.Label.close ∈ ls) ∧ 0 ≤ s.now ∧ (∀ t, s.last = some t → 0 ≤ t ∧ t ≤ s.now) ∧ (s.started = true → s.last ≠ none) := by
  refine Steps.invariant_trace (P := fun ls s => wsSilent ls = s.last.map (fun t => s.now - t) ∧ (s.closed = true ↔ WsFrames.Label.close ∈ ls) ∧ 0 ≤ s.now ∧
    (∀ t, s.last = some t → 0 ≤ t ∧ t ≤ s.now) ∧ (s.started = true → s.last ≠ none)) ?_ h ⟨rfl, ⟨nofun, nofun⟩, Int.le_refl _, nofun, nofun⟩
  rintro ls s l t ⟨i1, i2, i3, i4, i5⟩ hs
  have hquiet : wsTime [l] = 0 → wsNotes l = false → wsSilent (ls ++ [l]) = wsSilent ls := by
    intro h1 h2
    rw [wsSilent_other ls h2, h1]
    cases wsSilent ls with
    | none => rfl
    | some x => exact congrArg some (Int.add_zero x)
  have hclose : l ≠ .close → (WsFrames.Label.close ∈ ls ++ [l] ↔ WsFrames.Label.close ∈ ls) := by
    intro hl; simp [Ne.symm hl]
  cases hs with
  | advance d =>
    refine ⟨?_, i2.trans (hclose nofun).symm, by dsimp only; omega, fun t ht => by have := i4 t ht; dsimp only; omega, i5⟩
    rw [wsSilent_other ls rfl, i1]
    dsimp only
    cases s.last with
    | none => rfl
    | some x =>
      simp only [Option.map_some, wsTime, List.map_cons, List.map_nil, List.sum_cons, List.sum_nil]
      congr 1; omega
  | start hn =>
    refine ⟨?_, i2.trans (hclose nofun).symm, i3, fun t ht => by injection ht with ht; dsimp only; omega, fun _ => nofun⟩
    rw [wsSilent_notes ls rfl]; dsimp only [Option.map_some]; rw [Int.sub_self]
  | note n hn =>
    by_cases h0 : 0 < n
    · simp only [if_pos h0]
      refine ⟨?_, i2.trans (hclose nofun).symm, i3, fun t ht => by injection ht with ht; omega, fun _ => nofun⟩
      rw [wsSilent_notes ls (by simpa [wsNotes] using h0)]; dsimp only [Option.map_some]; rw [Int.sub_self]
    · simp only [if_neg h0]
      exact ⟨(hquiet rfl (by simpa [wsNotes] using h0)).trans i1, i2.trans (hclose nofun).symm, i3, i4, i5⟩
  | close => exact ⟨(hquiet rfl rfl).trans i1, by simp, i3, i4, i5⟩
  | _ => exact ⟨(hquiet rfl rfl).trans i1, i2.trans (hclose nofun).symm, i3, i4, i5⟩

/-- **C130, the exact condition.** In every execution and for every check: the connection is declared alive exactly if it has not been closed and less than `HeartbeatMax` has passed since a message that is
not empty was read to its end and noted, or since the start. Pings, pongs, empty messages and the frames of a message that is not finished do not count. -/
theorem C130_exact (hm : Int) (h0 : 0 ≤ hm) (h1 : hm * 1000000000 < 2 ^ 63) (ls : List WsFrames.Label) (b : Bool) (t : WsFrames.State)
    (h : Steps (WsFrames.Step hm) {} (ls ++ [.check b]) t) :
    b = true ↔ WsFrames.Label.close ∉ ls ∧ ∃ x, wsSilent ls = some x ∧ x < hm * 1000000000 := by
  obtain ⟨s, hs, hv⟩ := Steps.unsnoc h
  obtain ⟨i1, i2, i3, i4, i5⟩ := wsInv hs
  generalize hl : WsFrames.Label.check b = l at hv
  cases hv <;> cases hl
  rename_i hst
  rw [Bool.and_eq_true, decide_eq_true_iff, Bool.not_eq_true', ← Bool.not_eq_true, i2, limit_eq h0 h1, i1]
  refine and_congr Iff.rfl ?_
  cases hl : t.last with
  | none => exact absurd hl (i5 hst)
  | some t0 =>
    have := i4 t0 hl
    unfold Alive.elapsed Alive.maxDuration
    dsimp only
    constructor
    · intro hx
      refine ⟨_, rfl, ?_⟩
      show t.now - t0 < _
      rw [Int.min_def] at hx
      split at hx <;> omega
    · rintro ⟨x, hx, hlt⟩
      injection hx with hx
      dsimp only at hx
      omega

/-- What arrives in `fs`, `d` nanoseconds apart, is read at once. -/
def promptly (d : Nat) (fs : List WsFrames.Frame) : List WsFrames.Label := (fs.map fun f => [.advance d, .arrive f, .take f]).flatten

theorem promptly_run (hm : Int) (d : Nat) : ∀ (fs : List WsFrames.Frame) (s : WsFrames.State) (o : Option Bytes), s.started = true → s.reader = .reading → s.inbox = [] →
    readMessages s.begun fs = ([], some o) → Steps (WsFrames.Step hm) s (promptly d fs) { s with now := s.now + d * fs.length, begun := o }
  | [], s, o, _, _, _, h => by
    rw [readMessages] at h
    injection h with _ h
    injection h with h
    subst h
    simp only [List.length_nil, Int.natCast_zero, Int.mul_zero, Int.add_zero]
    exact .nil _
  | f :: fs, s, o, h1, h2, h3, h => by
    rw [readMessages] at h
    cases hf : onFrame s.begun f with
    | wait o1 =>
      rw [hf] at h
      have ih := promptly_run hm d fs { s with now := s.now + d, begun := o1 } o h1 h2 h3 h
      have e : ({ s with now := s.now + d, begun := o1 } : WsFrames.State).now + (d : Int) * fs.length = s.now + d * (f :: fs).length := by
        show s.now + (d : Int) + d * fs.length = _
        rw [List.length_cons, Int.natCast_add, Int.mul_add]; omega
      rw [e] at ih
      have a1 : WsFrames.Step hm s (.advance d) { s with now := s.now + d } := .advance s d
      have a2 : WsFrames.Step hm { s with now := s.now + d } (.arrive f) { s with now := s.now + d, inbox := [f] } := by
        have e : ({ s with now := s.now + d, inbox := s.inbox ++ [f] } : WsFrames.State) = { s with now := s.now + d, inbox := [f] } := by rw [h3]; rfl
        rw [← e]
        exact .arrive _ f
      have a3 : WsFrames.Step hm { s with now := s.now + d, inbox := [f] } (.take f) { s with now := s.now + d, inbox := [], begun := o1 } :=
        .take _ f [] o1 h1 h2 rfl hf
      have e2 : ({ s with now := s.now + d, inbox := [], begun := o1 } : WsFrames.State) = { s with now := s.now + d, begun := o1 } := by rw [← h3]
      rw [e2] at a3
      exact .cons a1 (.cons a2 (.cons a3 ih))
    | message b => rw [hf] at h; cases h
    | fail => rw [hf] at h; cases h

/-- **C130 refuted.** Whatever frames a client sends that do not complete a message, at whatever distance `d`, and although every frame is read the moment it arrives: at the first check after `HeartbeatMax` the
connection is declared dead. -/
theorem C130_refuted_frames (hm : Int) (h0 : 0 ≤ hm) (h1 : hm * 1000000000 < 2 ^ 63) (d : Nat) (fs : List WsFrames.Frame) (o : Option Bytes) (hf : readMessages none fs = ([], some o))
    (hl : hm * 1000000000 ≤ d * fs.length) : ∃ t, Steps (WsFrames.Step hm) {} (.start :: promptly d fs ++ [.check false]) t := by
  have run := promptly_run hm d fs { started := true, last := some 0 } o rfl rfl rfl hf
  have c := WsFrames.Step.check (heartbeatMax := hm) { ({ started := true, last := some 0 } : WsFrames.State) with now := 0 + d * fs.length, begun := o } rfl
  have e : decide (Alive.elapsed (0 + d * fs.length) (some 0) < Alive.limit hm) = false := by
    rw [decide_eq_false_iff_not, limit_eq h0 h1]
    unfold Alive.elapsed Alive.maxDuration
    dsimp only
    omega
  dsimp only at c
  rw [e] at c
  exact ⟨_, .cons (.start _ rfl) (run.append (.cons c (.nil _)))⟩

/-- **C130 refuted (pings).** A client that sends a ping every second is declared dead after `HeartbeatMax` seconds, 10 by default, and so is one that sends a long message in frames one second apart. -/
theorem C130_refuted (hm : Nat) (h1 : hm < 9000000000) :
    (∃ t, Steps (WsFrames.Step hm) {} (.start :: promptly 1000000000 (List.replicate hm ⟨true, .ping, []⟩) ++ [.check false]) t) ∧
    (∃ t, Steps (WsFrames.Step hm) {} (.start :: promptly 1000000000 (⟨false, .binary, [0]⟩ :: List.replicate hm ⟨false, .cont, [0]⟩) ++ [.check false]) t) := by
  have hp : ∀ n, readMessages none (List.replicate n ⟨true, .ping, []⟩) = ([], some none) := by
    intro n
    induction n with
    | zero => rfl
    | succ n ih => rw [List.replicate_succ, readMessages, onFrame_keepAlive (by decide)]; exact ih
  have hc : ∀ n b, ∃ o, readMessages (some b) (List.replicate n ⟨false, .cont, [0]⟩) = ([], some o) := by
    intro n
    induction n with
    | zero => intro b; exact ⟨_, rfl⟩
    | succ n ih =>
      intro b
      rw [List.replicate_succ, readMessages]
      exact ih (b ++ [0])
  constructor
  · exact C130_refuted_frames hm (by omega) (by omega) _ _ none (hp hm) (by rw [List.length_replicate]; omega)
  · obtain ⟨o, ho⟩ := hc hm [0]
    refine C130_refuted_frames hm (by omega) (by omega) _ _ o ?_ (by rw [List.length_cons, List.length_replicate]; omega)
    rw [readMessages]
    exact ho

/-- A message of one byte, read and noted, keeps the connection alive. -/
example : ∃ t, Steps (WsFrames.Step 10) {} ([.start, .advance 9000000000, .arrive ⟨true, .binary, [1]⟩, .complete ⟨true, .binary, [1]⟩, .note 1, .handed, .advance 9000000000] ++ [.check true]) t :=
  ⟨_, .cons (.start _ rfl) (.cons (.advance _ _) (.cons (.arrive _ _) (.cons (.complete _ _ [] [1] rfl rfl rfl rfl) (.cons (.note _ 1 rfl) (.cons (.handed _ rfl) (.cons (.advance _ _)
    (.cons (.check _ rfl) (.nil _))))))))⟩

/-! ### The reader among the other goroutines -/

/-- The frame an action takes from the connection. -/
def wsTaken : WsFrames.Label → Option WsFrames.Frame
  | .take f | .complete f | .fail f => some f
  | _ => none

/-- The frame an action brings. -/
def wsArrived : WsFrames.Label → Option WsFrames.Frame
  | .arrive f => some f
  | _ => none

/-- The length of the message an action hands on. -/
def wsNoted : WsFrames.Label → Option Nat
  | .note n => some n
  | _ => none

theorem read_snoc (f : WsFrames.Frame) : ∀ (fs : List WsFrames.Frame) (o : Option Bytes),
    readMessages o (fs ++ [f]) = match (readMessages o fs).2 with
      | none => readMessages o fs
      | some b => match onFrame b f with
        | .wait b' => ((readMessages o fs).1, some b')
        | .message m => ((readMessages o fs).1 ++ [m], some none)
        | .fail => ((readMessages o fs).1, none) := by
  intro fs
  induction fs with
  | nil =>
    intro o
    simp only [List.nil_append, readMessages]
    cases onFrame o f <;> rfl
  | cons g fs ih =>
    intro o
    rw [List.cons_append]
    simp only [readMessages]
    cases onFrame o g with
    | wait b => exact ih b
    | message m =>
      dsimp only
      rw [ih none]
      generalize readMessages none fs = p
      obtain ⟨p1, p2⟩ := p
      cases p2 with
      | none => rfl
      | some b =>
        dsimp only
        cases onFrame b f <;> rfl
    | fail => rfl

/-- **C129, in every execution.** Whatever the peer, the clock, the checks and the closing do in between: the frames taken are those that have arrived, in order; they are taken only after the start; the
messages handed on are those that the frames taken spell, in order, each with its length; and the reader has ended exactly if the frames taken make `ReadMessage` fail, after which it takes nothing. -/
theorem C129_reader (hm : Int) (ls : List WsFrames.Label) (s : WsFrames.State) (h : Steps (WsFrames.Step hm) {} ls s) :
    ls.filterMap wsTaken ++ s.inbox = ls.filterMap wsArrived ∧
    (ls.filterMap wsTaken ≠ [] → .start ∈ ls) ∧
    ls.filterMap wsNoted ++ (match s.reader with | .got n => [n] | _ => []) = (readMessages none (ls.filterMap wsTaken)).1.map List.length ∧
    (readMessages none (ls.filterMap wsTaken)).2 = if s.reader = .ended then none else some s.begun := by
  have key : ls.filterMap wsTaken ++ s.inbox = ls.filterMap wsArrived ∧ (s.started = true → .start ∈ ls) ∧
      (ls.filterMap wsTaken ≠ [] → s.started = true) ∧
      ls.filterMap wsNoted ++ (match s.reader with | .got n => [n] | _ => []) = (readMessages none (ls.filterMap wsTaken)).1.map List.length ∧
      (readMessages none (ls.filterMap wsTaken)).2 = if s.reader = .ended then none else some s.begun := by
    refine Steps.invariant_trace (P := fun ls s => ls.filterMap wsTaken ++ s.inbox = ls.filterMap wsArrived ∧ (s.started = true → .start ∈ ls) ∧
      (ls.filterMap wsTaken ≠ [] → s.started = true) ∧
      ls.filterMap wsNoted ++ (match s.reader with | .got n => [n] | _ => []) = (readMessages none (ls.filterMap wsTaken)).1.map List.length ∧
      (readMessages none (ls.filterMap wsTaken)).2 = if s.reader = .ended then none else some s.begun) ?_ h
      ⟨rfl, nofun, fun h => absurd rfl h, rfl, rfl⟩
    clear h s ls
    rintro ls s l t ⟨i1, i2, i3, i4, i5⟩ hs
    have mem : WsFrames.Label.start ∈ ls → .start ∈ ls ++ [l] := fun h => List.mem_append_left _ h
    cases hs with
    | arrive f =>
      simp only [List.filterMap_append, List.filterMap_cons, List.filterMap_nil, wsTaken, wsArrived, wsNoted, List.append_nil]
      exact ⟨by rw [← List.append_assoc, i1], fun h => mem (i2 h), i3, i4, i5⟩
    | start hn =>
      simp only [List.filterMap_append, List.filterMap_cons, List.filterMap_nil, wsTaken, wsArrived, wsNoted, List.append_nil]
      exact ⟨i1, fun _ => by simp, fun _ => trivial, i4, i5⟩
    | take f r o h1 h2 h3 h4 =>
      rw [h2] at i4 i5
      rw [if_neg nofun] at i5
      simp only [List.filterMap_append, List.filterMap_cons, List.filterMap_nil, wsTaken, wsArrived, wsNoted, List.append_nil]
      rw [read_snoc, i5]
      dsimp only
      rw [h4, h2]
      refine ⟨?_, fun h => mem (i2 h), fun _ => h1, i4, rfl⟩
      rw [← i1, h3]; simp
    | complete f r b h1 h2 h3 h4 =>
      rw [h2] at i4 i5
      rw [if_neg nofun] at i5
      simp only [List.filterMap_append, List.filterMap_cons, List.filterMap_nil, wsTaken, wsArrived, wsNoted, List.append_nil]
      rw [read_snoc, i5]
      dsimp only
      rw [h4]
      refine ⟨?_, fun h => mem (i2 h), fun _ => h1, ?_, rfl⟩
      · rw [← i1, h3]; simp
      · dsimp only at i4 ⊢
        rw [List.append_nil] at i4
        rw [i4, List.map_append]; rfl
    | fail f r h1 h2 h3 h4 =>
      rw [h2] at i4 i5
      rw [if_neg nofun] at i5
      simp only [List.filterMap_append, List.filterMap_cons, List.filterMap_nil, wsTaken, wsArrived, wsNoted, List.append_nil]
      rw [read_snoc, i5]
      dsimp only
      rw [h4]
      refine ⟨?_, fun h => mem (i2 h), fun _ => h1, ?_, rfl⟩
      · rw [← i1, h3]; simp
      · dsimp only at i4 ⊢
        rw [List.append_nil] at i4
        exact i4
    | note n hn =>
      rw [hn] at i4 i5
      rw [if_neg nofun] at i5
      simp only [List.filterMap_append, List.filterMap_cons, List.filterMap_nil, wsTaken, wsArrived, wsNoted, List.append_nil]
      exact ⟨i1, fun h => mem (i2 h), i3, i4, i5⟩
    | handed hn =>
      rw [hn] at i4 i5
      rw [if_neg nofun] at i5
      simp only [List.filterMap_append, List.filterMap_cons, List.filterMap_nil, wsTaken, wsArrived, wsNoted, List.append_nil]
      dsimp only at i4
      rw [List.append_nil] at i4
      exact ⟨i1, fun h => mem (i2 h), i3, i4, i5⟩
    | _ =>
      simp only [List.filterMap_append, List.filterMap_cons, List.filterMap_nil, wsTaken, wsArrived, wsNoted, List.append_nil]
      exact ⟨i1, fun h => mem (i2 h), i3, i4, i5⟩
  exact ⟨key.1, fun h => key.2.1 (key.2.2.1 h), key.2.2.2⟩

/-- Two messages in three frames, with a ping, then a close frame. -/
example : ∃ t, Steps (WsFrames.Step 10) {} [.arrive ⟨false, .binary, [1]⟩, .start, .arrive ⟨true, .ping, []⟩, .take ⟨false, .binary, [1]⟩, .take ⟨true, .ping, []⟩, .arrive ⟨true, .cont, [2]⟩,
    .complete ⟨true, .cont, [2]⟩, .note 2, .handed, .arrive ⟨true, .close, []⟩, .fail ⟨true, .close, []⟩, .arrive ⟨true, .text, []⟩] t ∧ t.reader = .ended ∧ t.inbox ≠ [] :=
  ⟨_, .cons (.arrive _ _) (.cons (.start _ rfl) (.cons (.arrive _ _) (.cons (.take _ _ _ _ rfl rfl rfl rfl) (.cons (.take _ _ _ _ rfl rfl rfl rfl) (.cons (.arrive _ _)
    (.cons (.complete _ _ _ _ rfl rfl rfl rfl) (.cons (.note _ _ rfl) (.cons (.handed _ rfl) (.cons (.arrive _ _) (.cons (.fail _ _ _ rfl rfl rfl rfl) (.cons (.arrive _ _) (.nil _)))))))))))),
    rfl, nofun⟩

end C130

end Zinx.Props
