import Verif.Model.Options
import Verif.Props.Wire

/-!
# C114: which sides understand each other
-/

namespace Zinx.Props

open Zinx Zinx.Spec Zinx.Frame Zinx.Pack Zinx.Decoder Zinx.Options

/-- What the router of one side is given, ID and data, is what the other side sent: any messages of fewer than 2^32-8 bytes, cut into reads in any way. -/
def Understands (sender receiver : Side) : Prop :=
  ∀ (msgs : List (UInt32 × Bytes)), (∀ m ∈ msgs, m.2.length < 2 ^ 32 - 8) → ∀ reads : List Bytes, reads.flatten = (msgs.map sender.says).flatten →
    (receiver.hears reads).map (fun m => (m.id, m.data)) = msgs

/-- The decoder that goes with a packing. -/
def decoderOf : PackKind → Kind
  | .tlv => .tlv
  | .ltv => .ltv

theorem deliverAll_one (k : Kind) (fs : List Bytes) : deliverAll [k] fs = ((deliver k fs).1.map (·.1), (deliver k fs).2) := by
  induction fs with
  | nil => rfl
  | cons f fs ih =>
    simp only [deliverAll, deliver, interceptAll]
    cases intercept k (newMessage (UInt32.ofNat f.length) f) with
    | error p => rfl
    | ok m => simp [ih]

theorem hears_one (k : Kind) (reads : List Bytes) : ∀ d, Options.hears [k] (some d) reads = (receive k d reads).1.map (·.1) := by
  induction reads with
  | nil => intro d; rfl
  | cons r rs ih =>
    intro d
    simp only [Options.hears, receive]
    cases Decode d r with
    | panic p => rfl
    | hang => rfl
    | ret fs d' =>
      simp only [deliverAll_one]
      rcases h : deliver k fs with ⟨ms, _ | p⟩
      · simp [ih]
      · simp

/-- The decoder of the packing, once. -/
theorem understands_of {a b : Side} (h1 : b.decoder = some (decoderOf a.packet)) (h2 : b.chain = [decoderOf a.packet]) : Understands a b := by
  intro msgs hm reads hr
  unfold Side.hears
  rw [h1, h2]
  simp only [Option.map_some, hears_one]
  replace hr : reads.flatten = (msgs.map fun m => a.packet.pack (newMsgPackage m.1 m.2)).flatten := hr
  cases hp : a.packet with
  | tlv =>
    rw [hp] at hr
    have := (C11_tlv_end_to_end msgs hm (0, []) (by decide) [] (packTlv (newMsgPackage 0 [])) rfl (by decide) reads (by simpa [PackKind.pack] using hr)).1
    simpa [receiveNew, Function.comp_def, decoderOf] using this
  | ltv =>
    rw [hp] at hr
    have := (C12_ltv_end_to_end msgs hm (0, []) (by decide) [] (packLtv (newMsgPackage 0 [])) rfl (by decide) reads (by simpa [PackKind.pack] using hr)).1
    simpa [receiveNew, Function.comp_def, decoderOf] using this

/-- The message that shows the difference: its data is itself a packed message. -/
def telling : PackKind → UInt32 × Bytes
  | .tlv => (1, [0, 0, 0, 7, 0, 0, 0, 0])
  | .ltv => (1, [0, 0, 0, 0, 7, 0, 0, 0])

/-- Its bytes. -/
def tellingBytes : PackKind → Bytes
  | .tlv => [0, 0, 0, 1, 0, 0, 0, 8, 0, 0, 0, 7, 0, 0, 0, 0]
  | .ltv => [8, 0, 0, 0, 1, 0, 0, 0, 0, 0, 0, 0, 7, 0, 0, 0]

theorem telling_says (a : Side) : a.says (telling a.packet) = tellingBytes a.packet := by
  unfold Side.says
  cases a.packet <;> decide +kernel

/-- A message with less than five bytes of data passes every decoder. -/
theorem interceptAll_short (ks : List Kind) (m : Message) (h : m.data.length < 5) : interceptAll ks m = .ok m := by
  induction ks with
  | nil => rfl
  | cons k ks ih =>
    have : intercept k m = .ok (m, none) := by
      cases k <;> simp only [intercept] <;> rw [if_pos (by omega)]
    simp only [interceptAll, this, ih]

/-- Without decoders the message keeps the ID 0. -/
theorem interceptAll_telling (p : PackKind) (ks : List Kind) (h : ks ≠ [decoderOf p]) :
    ∀ m, interceptAll ks (newMessage 16 (tellingBytes p)) = .ok m → (m.id, m.data) ≠ telling p := by
  intro m hm
  match ks with
  | [] =>
    simp only [interceptAll, Except.ok.injEq] at hm
    subst hm
    cases p <;> decide
  | k :: ks =>
    by_cases hk : k = decoderOf p
    · subst hk
      match ks with
      | [] => exact absurd rfl h
      | k :: ks =>
        cases p <;> cases k
        case tlv.tlv =>
          have e : ∀ ks, interceptAll (.tlv :: .tlv :: ks) (newMessage 16 (tellingBytes .tlv)) = interceptAll ks ⟨0, 7, [], tellingBytes .tlv⟩ := fun _ => rfl
          rw [decoderOf, e, interceptAll_short _ _ (by decide), Except.ok.injEq] at hm
          subst hm
          decide
        case ltv.ltv =>
          have e : ∀ ks, interceptAll (.ltv :: .ltv :: ks) (newMessage 16 (tellingBytes .ltv)) = interceptAll ks ⟨0, 7, [], tellingBytes .ltv⟩ := fun _ => rfl
          rw [decoderOf, e, interceptAll_short _ _ (by decide), Except.ok.injEq] at hm
          subst hm
          decide
        case tlv.ltv =>
          have e : ∀ ks, interceptAll (.tlv :: .ltv :: ks) (newMessage 16 (tellingBytes .tlv)) = .error .sliceBounds := fun _ => rfl
          rw [decoderOf, e] at hm
          cases hm
        case tlv.htlv =>
          have e : ∀ ks, interceptAll (.tlv :: .htlv :: ks) (newMessage 16 (tellingBytes .tlv)) = .error .nilDeref := fun ks => by
            have e1 : intercept .tlv (newMessage 16 (tellingBytes .tlv)) = .ok (⟨8, 1, (telling .tlv).2, tellingBytes .tlv⟩, some (.tlv 1 8 (telling .tlv).2)) := by decide +kernel
            have e2 : intercept .htlv ⟨8, 1, (telling .tlv).2, tellingBytes .tlv⟩ = .error .nilDeref := by decide +kernel
            simp only [interceptAll, e1, e2]
          rw [decoderOf, e] at hm
          cases hm
        case ltv.tlv =>
          have e : ∀ ks, interceptAll (.ltv :: .tlv :: ks) (newMessage 16 (tellingBytes .ltv)) = .error .sliceBounds := fun _ => rfl
          rw [decoderOf, e] at hm
          cases hm
        case ltv.htlv =>
          have e : ∀ ks, interceptAll (.ltv :: .htlv :: ks) (newMessage 16 (tellingBytes .ltv)) = .error .nilDeref := fun ks => by
            have e1 : intercept .ltv (newMessage 16 (tellingBytes .ltv)) = .ok (⟨8, 1, (telling .ltv).2, tellingBytes .ltv⟩, some (.ltv 8 1 (telling .ltv).2)) := by decide +kernel
            have e2 : intercept .htlv ⟨8, 1, (telling .ltv).2, tellingBytes .ltv⟩ = .error .nilDeref := by decide +kernel
            simp only [interceptAll, e1, e2]
          rw [decoderOf, e] at hm
          cases hm
    · exfalso
      have : ∃ e, intercept k (newMessage 16 (tellingBytes p)) = .error e := by
        cases p <;> cases k <;> first | exact absurd rfl hk | exact ⟨.sliceBounds, by decide +kernel⟩ | exact ⟨.nilDeref, by decide +kernel⟩
      obtain ⟨e, he⟩ := this
      simp only [interceptAll, he] at hm
      cases hm

/-- Five bytes whose checksum is wrong: unchanged through TLV and LTV, a panic in HTLV. -/
theorem interceptAll_five (ks : List Kind) (m : Message) (h : m.data.length < 8) (hc : ∃ e, intercept .htlv m = .error e) : interceptAll ks m = .ok m ∨ ∃ e, interceptAll ks m = .error e := by
  induction ks with
  | nil => exact .inl rfl
  | cons k ks ih =>
    have : intercept k m = .ok (m, none) ∨ ∃ e, intercept k m = .error e := by
      cases k
      · left; simp only [intercept]; rw [if_pos h]
      · left; simp only [intercept]; rw [if_pos h]
      · exact .inr hc
    rcases this with e | ⟨q, e⟩
    · simpa only [interceptAll, e] using ih
    · exact .inr ⟨q, by simp only [interceptAll, e]⟩

theorem nothing_tlv : Decode (newFrameDecoder (lengthField .ltv)) (tellingBytes .tlv) = .ret [] { newFrameDecoder (lengthField .ltv) with inBuf := tellingBytes .tlv } := by decide +kernel

theorem nothing_ltv : Decode (newFrameDecoder (lengthField .tlv)) (tellingBytes .ltv) = .ret [] { newFrameDecoder (lengthField .tlv) with inBuf := tellingBytes .ltv } := by decide +kernel

theorem five_tlv : Decode (newFrameDecoder (lengthField .htlv)) (tellingBytes .tlv) =
    .ret [[0, 0, 0, 1, 0]] { newFrameDecoder (lengthField .htlv) with inBuf := [0, 0, 8, 0, 0, 0, 7, 0, 0, 0, 0] } := by decide +kernel

theorem five_ltv : Decode (newFrameDecoder (lengthField .htlv)) (tellingBytes .ltv) =
    .ret [[8, 0, 0, 0, 1], [0, 0, 0, 0, 0]] { newFrameDecoder (lengthField .htlv) with inBuf := [0, 0, 7, 0, 0, 0] } := by decide +kernel

/-- **C114.** One side understands the other exactly if, when its connection is made, its decoder is the one that goes with the packing of the sender, and the chain of its message handler contains that
decoder, once, and no other. -/
theorem C114_exact (a b : Side) : Understands a b ↔ b.decoder = some (decoderOf a.packet) ∧ b.chain = [decoderOf a.packet] := by
  refine ⟨fun h => ?_, fun ⟨h1, h2⟩ => understands_of h1 h2⟩
  have one : ∀ reads : List Bytes, reads.flatten = tellingBytes a.packet → (b.hears reads).map (fun m => (m.id, m.data)) = [telling a.packet] := by
    intro reads hr
    refine h [telling a.packet] ?_ reads (by simp [hr, telling_says])
    cases a.packet <;> decide
  generalize a.packet = p at one ⊢
  have hd : b.decoder = some (decoderOf p) := by
    cases hb : b.decoder with
    | none =>
      exfalso
      -- one byte alone is a message of its own
      have h1 := one [(tellingBytes p).take 1, (tellingBytes p).drop 1] (by cases p <;> rfl)
      unfold Side.hears at h1
      rw [hb] at h1
      simp only [Option.map_none, Options.hears, deliverAll] at h1
      rw [interceptAll_short _ _ (by cases p <;> decide)] at h1
      simp only [List.map_cons, List.cons_append, List.nil_append, List.cons.injEq] at h1
      have := h1.1
      cases p <;> revert this <;> decide
    | some k =>
      by_cases hk : k = decoderOf p
      · rw [hk]
      · exfalso
        have h1 := one [tellingBytes p] (by simp)
        unfold Side.hears at h1
        rw [hb] at h1
        simp only [Option.map_some, Options.hears] at h1
        cases p <;> cases k <;> first | exact hk rfl | skip
        case tlv.ltv =>
          rw [nothing_tlv] at h1
          simp [deliverAll] at h1
        case ltv.tlv =>
          rw [nothing_ltv] at h1
          simp [deliverAll] at h1
        case tlv.htlv =>
          rw [five_tlv] at h1
          simp only [deliverAll] at h1
          rcases interceptAll_five b.chain (newMessage (UInt32.ofNat ([0, 0, 0, 1, 0] : Bytes).length) [0, 0, 0, 1, 0]) (by decide) ⟨.nilDeref, by decide +kernel⟩ with e | ⟨q, e⟩ <;> rw [e] at h1
          · simp [newMessage, telling] at h1
          · simp at h1
        case ltv.htlv =>
          rw [five_ltv] at h1
          simp only [deliverAll] at h1
          rcases interceptAll_five b.chain (newMessage (UInt32.ofNat ([8, 0, 0, 0, 1] : Bytes).length) [8, 0, 0, 0, 1]) (by decide) ⟨.nilDeref, by decide +kernel⟩ with e | ⟨q, e⟩ <;> rw [e] at h1
          · generalize interceptAll b.chain (newMessage (UInt32.ofNat ([0, 0, 0, 0, 0] : Bytes).length) [0, 0, 0, 0, 0]) = x at h1
            cases x <;> simp [newMessage, telling] at h1
          · simp at h1
  refine ⟨hd, ?_⟩
  apply Classical.byContradiction
  intro hc
  have h1 := one [tellingBytes p] (by simp)
  unfold Side.hears at h1
  rw [hd] at h1
  have hD : ∃ d', Decode (newFrameDecoder (lengthField (decoderOf p))) (tellingBytes p) = .ret [tellingBytes p] d' := by
    cases p
    · exact ⟨newFrameDecoder (lengthField .tlv), by decide +kernel⟩
    · exact ⟨newFrameDecoder (lengthField .ltv), by decide +kernel⟩
  obtain ⟨d', hD⟩ := hD
  have hl : UInt32.ofNat (tellingBytes p).length = 16 := by cases p <;> rfl
  simp only [Option.map_some, Options.hears, hD, deliverAll, hl] at h1
  cases hi : interceptAll b.chain (newMessage 16 (tellingBytes p)) with
  | error e => simp [hi] at h1
  | ok m =>
    simp [hi] at h1
    exact interceptAll_telling p b.chain hc m hi (by rw [← h1])

/-- A default server and a default client, both started. -/
example : Understands (client [.start]) (server [.start]) ∧ Understands (server [.start]) (client [.start]) :=
  ⟨(C114_exact _ _).2 (by decide), (C114_exact _ _).2 (by decide)⟩

/-! ## In terms of the calls -/

/-- The packing set last, TLV if none was set. -/
def lastPacket (ops : List Op) : PackKind :=
  ((ops.filterMap fun | .setPacket p => some p | _ => none).getLast?).getD .tlv

/-- The decoder set last (nil is `none`), TLV if none was set. -/
def lastDecoder (ops : List Op) : Option Kind :=
  ((ops.filterMap fun | .setDecoder d => some d | _ => none).getLast?).getD (some .tlv)

/-- What calls other than `Start` make of a side. -/
theorem built_from (f : Side → Op → Side) (hp : ∀ s p, f s (.setPacket p) = { s with packet := p }) (hd : ∀ s d, f s (.setDecoder d) = { s with decoder := d }) (ops : List Op) (h : .start ∉ ops) :
    ∀ s, ops.foldl f s = { s with
      packet := ((ops.filterMap fun | .setPacket p => some p | _ => none).getLast?).getD s.packet,
      decoder := ((ops.filterMap fun | .setDecoder d => some d | _ => none).getLast?).getD s.decoder } := by
  induction ops with
  | nil => intro s; rfl
  | cons o ops ih =>
    intro s
    have h' : .start ∉ ops := fun e => h (List.mem_cons_of_mem _ e)
    cases o with
    | setPacket p => simp [hp, ih h', List.getLast?_cons]
    | setDecoder d => simp [hd, ih h', List.getLast?_cons]
    | start => simp at h

theorem server_built (ops : List Op) (h : .start ∉ ops) : server ops = { packet := lastPacket ops, decoder := lastDecoder ops, head := none, body := [] } :=
  built_from Side.serverOp (fun _ _ => rfl) (fun _ _ => rfl) ops h newSide

theorem client_built (ops : List Op) (h : .start ∉ ops) : client ops = { packet := lastPacket ops, decoder := lastDecoder ops, head := none, body := [] } :=
  built_from Side.clientOp (fun _ _ => rfl) (fun _ _ => rfl) ops h newSide

/-- The packing is the one set last, whatever else was called. -/
theorem packet_server (ops : List Op) : ∀ s, (ops.foldl Side.serverOp s).packet = ((ops.filterMap fun | .setPacket p => some p | _ => none).getLast?).getD s.packet := by
  induction ops with
  | nil => intro s; rfl
  | cons o ops ih =>
    intro s
    cases o with
    | setPacket p => simp [Side.serverOp, ih, List.getLast?_cons]
    | setDecoder d => simp [Side.serverOp, ih]
    | start =>
      simp only [List.foldl_cons, ih, Side.serverOp]
      cases s.decoder <;> rfl

theorem packet_client (ops : List Op) : ∀ s, (ops.foldl Side.clientOp s).packet = ((ops.filterMap fun | .setPacket p => some p | _ => none).getLast?).getD s.packet := by
  induction ops with
  | nil => intro s; rfl
  | cons o ops ih =>
    intro s
    cases o with
    | setPacket p => simp [Side.clientOp, ih, List.getLast?_cons]
    | setDecoder d => simp [Side.clientOp, ih]
    | start =>
      simp only [List.foldl_cons, ih, Side.clientOp]
      cases s.decoder <;> rfl

/-- **C114.** The packing of a connection is the one that was set last before it was made, before or after `Start`; TLV if none was set. -/
theorem C114_packet (ops : List Op) : (server ops).packet = lastPacket ops ∧ (client ops).packet = lastPacket ops :=
  ⟨packet_server ops newSide, packet_client ops newSide⟩

example : (server [.start, .setPacket .ltv]).packet = .ltv := by decide

/-- **C114.** The factory: the name of the old packing gives LTV, every other one TLV. -/
theorem C114_factory (kind : String) : newPack kind = .ltv ↔ kind = "zinx_pack_ltv_little_endian" := by
  unfold newPack
  split
  · rename_i h; subst h; simp
  · split <;> simp_all

theorem server_started {ops : List Op} (h : .start ∉ ops) : server (ops ++ [.start]) = { packet := lastPacket ops, decoder := lastDecoder ops, head := lastDecoder ops, body := [] } := by
  unfold server
  rw [List.foldl_append]
  have := server_built ops h
  unfold server at this
  rw [this]
  simp only [List.foldl_cons, List.foldl_nil, Side.serverOp]
  cases lastDecoder ops <;> rfl

theorem client_started {ops : List Op} (h : .start ∉ ops) :
    client (ops ++ [.start]) = { packet := lastPacket ops, decoder := lastDecoder ops, head := none, body := (lastDecoder ops).toList } := by
  unfold client
  rw [List.foldl_append]
  have := client_built ops h
  unfold client at this
  rw [this]
  simp only [List.foldl_cons, List.foldl_nil, Side.clientOp]
  cases lastDecoder ops <;> rfl

theorem chain_iff (d : Option Kind) (k : Kind) : (d = some k ∧ d.toList = [k]) ↔ d = some k := by
  cases d <;> simp

/-- The full claim C114: whatever was set before, a server and a client that were set up by the same calls and then started understand each other. -/
def SameCallsSuffice : Prop :=
  ∀ ops : List Op, .start ∉ ops → Understands (client (ops ++ [.start])) (server (ops ++ [.start])) ∧ Understands (server (ops ++ [.start])) (client (ops ++ [.start]))

/-- **C114, partial.** A server and a client that were set up before their only `Start` understand each other, in either direction, exactly if the decoder set last on the receiving side goes with the
packing set last on the sending side. Missing: that the same calls suffice; they do exactly if packing and decoder go together. -/
theorem C114_partial (mine yours : List Op) (h1 : .start ∉ mine) (h2 : .start ∉ yours) :
    (Understands (client (mine ++ [.start])) (server (yours ++ [.start])) ↔ lastDecoder yours = some (decoderOf (lastPacket mine))) ∧
    (Understands (server (mine ++ [.start])) (client (yours ++ [.start])) ↔ lastDecoder yours = some (decoderOf (lastPacket mine))) ∧
    (Understands (client (mine ++ [.start])) (client (yours ++ [.start])) ↔ lastDecoder yours = some (decoderOf (lastPacket mine))) ∧
    (Understands (server (mine ++ [.start])) (server (yours ++ [.start])) ↔ lastDecoder yours = some (decoderOf (lastPacket mine))) := by
  simp only [C114_exact, server_started h1, server_started h2, client_started h1, client_started h2, Side.chain, List.append_nil, Option.toList_none, List.nil_append, chain_iff, and_self]

/-- The old packing with the old decoder. -/
example : Understands (client [.setPacket (newPack "zinx_pack_ltv_little_endian"), .setDecoder (some .ltv), .start])
    (server [.setPacket (newPack "zinx_pack_ltv_little_endian"), .setDecoder (some .ltv), .start]) :=
  (C114_partial [.setPacket .ltv, .setDecoder (some .ltv)] [.setPacket .ltv, .setDecoder (some .ltv)] (by decide) (by decide)).1.2 (by decide)

/-- **C114 is false of the code.** `WithPacket` with the old packing on both sides leaves the decoder as it was: neither side understands the other. -/
theorem C114_refuted : ¬ SameCallsSuffice := by
  intro h
  have h1 := (h [.setPacket (newPack "zinx_pack_ltv_little_endian")] (by decide)).1
  have := (C114_partial [.setPacket .ltv] [.setPacket .ltv] (by decide) (by decide)).1.1 h1
  revert this
  decide

/-- A client that was started a second time has the decoder twice and understands no server any more, whatever its packing; a server that was started a second time still understands (`C114_again`). -/
theorem C114_refuted_again (a : Side) : ¬ Understands a (client [.start, .start]) := by
  rw [C114_exact]
  rintro ⟨-, h⟩
  simp [client, newSide, Side.clientOp, Side.chain] at h

/-- Starting a server any number of times, without other calls in between, is like starting it once. -/
theorem C114_again (a : Side) (ops : List Op) (h : .start ∉ ops) (n : Nat) : Understands a (server (ops ++ List.replicate (n + 1) .start)) ↔ Understands a (server (ops ++ [.start])) := by
  have : server (ops ++ List.replicate (n + 1) .start) = server (ops ++ [.start]) := by
    induction n with
    | zero => rfl
    | succ n ih =>
      rw [List.replicate_succ', ← List.append_assoc]
      unfold server at ih ⊢
      rw [List.foldl_append, ih]
      have := server_started h
      unfold server at this
      rw [this]
      simp only [List.foldl_cons, List.foldl_nil, Side.serverOp]
      cases lastDecoder ops <;> rfl
  rw [this]

/-- A decoder set after `Start` takes effect by half: the frames of new connections are cut according to the new decoder but decoded by the old one. Then nobody is understood, unless it is the decoder that was
there already. -/
theorem C114_refuted_late (a : Side) (d : Option Kind) (hd : d ≠ some .tlv) : ¬ Understands a (server [.start, .setDecoder d]) ∧ ¬ Understands a (client [.start, .setDecoder d]) := by
  simp only [C114_exact]
  constructor
  all_goals
    rintro ⟨h1, h2⟩
    simp [server, client, newSide, Side.serverOp, Side.clientOp, Side.chain] at h1 h2
    exact hd (by rw [h1, h2])

example : (some Kind.ltv) ≠ some .tlv := by decide

end Zinx.Props
