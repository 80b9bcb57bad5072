import Verif.Model.HbStart
import Verif.Props.HeartbeatConf
import Verif.Props.Router

/-!
# Heartbeats are handled by the functions given for them (C127)
-/

namespace Zinx.Props

open Zinx.HeartbeatConf Zinx.HbStart

variable {H : Type}

/-- The option names a router (or, in slice mode, handlers) and an ID other than the default one. -/
def hbGiven (slices : Bool) (o : Opt H) : Bool := (if slices then !o.routerSlices.isEmpty else o.router.isSome) && o.msgID != 99999

/-- The checker made from an option. -/
theorem hb_checker (d : Defaults H) (spare : Nat → Nat) (slices : Bool) (interval : Int) (o : Opt H) :
    checker d spare slices interval (some o) = some ⟨interval, some (o.makeMsg.getD d.makeMsg), some (o.onRemoteNotAlive.getD d.notAlive), if hbGiven slices o then o.msgID else 99999,
      if !slices && hbGiven slices o then o.router else some d.router, if slices && hbGiven slices o then some d.handle :: o.routerSlices else [some d.handle], none, none⟩ := by
  have h0 : (State.empty.run d spare ([] : List (Op H))).checkers.length = 0 := rfl
  have h1 := (C44_new d spare [] interval).1
  rw [h0] at h1
  have hstep : ∀ (l : List (Op H)) (x : Op H), (State.empty.run d spare l).step d spare x = State.empty.run d spare (l ++ [x]) := by
    intro l x; simp [State.run, List.foldl_append]
  rw [hstep] at h1
  obtain ⟨f, g, m, r, hs⟩ := o
  have h2 : (State.empty.run d spare ([] ++ [.new interval] ++ [.setHeartbeatMsgFunc 0 f])).view 0 = some ⟨interval, some (f.getD d.makeMsg), some d.notAlive, 99999, some d.router, [some d.handle], none, none⟩ := by
    rw [← hstep]
    cases f with
    | none => rw [(C44_nil d spare _ 0 0 none []).2.1]; exact h1
    | some f => exact (C44_set d spare _ 0 _ f 0 (by decide) [none] (by simp) h1).2.1
  have h3 : (State.empty.run d spare ([] ++ [.new interval] ++ [.setHeartbeatMsgFunc 0 f] ++ [.setOnRemoteNotAlive 0 g])).view 0 = some ⟨interval, some (f.getD d.makeMsg), some (g.getD d.notAlive), 99999, some d.router, [some d.handle], none, none⟩ := by
    rw [← hstep]
    cases g with
    | none => rw [(C44_nil d spare _ 0 0 none []).1]; exact h2
    | some g => exact (C44_set d spare _ 0 _ g 0 (by decide) [none] (by simp) h2).1
  show (State.empty.run d spare ([] ++ [.new interval] ++ [.setHeartbeatMsgFunc 0 f] ++ [.setOnRemoteNotAlive 0 g] ++ [if slices then .bindRouterSlices 0 m hs else .bindRouter 0 m r])).view 0 = _
  rw [← hstep]
  by_cases hm : m = 99999
  · subst hm
    have hg : ∀ b, hbGiven b ⟨f, g, 99999, r, hs⟩ = false := by intro b; simp [hbGiven]
    simp only [hg, Bool.and_false]
    cases slices
    · exact (congrArg (·.view 0) (C44_nil d spare _ 0 0 r []).2.2.2.2.1).trans h3
    · exact (congrArg (·.view 0) (C44_nil d spare _ 0 0 r hs).2.2.2.2.2.2).trans h3
  · cases slices
    · cases r with
      | none => exact (congrArg (·.view 0) (C44_nil d spare _ 0 m none []).2.2.2.1).trans h3
      | some r =>
        have hg : hbGiven false ⟨f, g, m, some r, hs⟩ = true := by simp [hbGiven, hm]
        simp only [hg]
        exact (C44_set d spare _ 0 _ r m hm [none] (by simp) h3).2.2.2.1
    · cases hs with
      | nil => exact (congrArg (·.view 0) (C44_nil d spare _ 0 m none []).2.2.2.2.2.1).trans h3
      | cons x hs =>
        have hg : hbGiven true ⟨f, g, m, r, x :: hs⟩ = true := by simp [hbGiven, hm]
        simp only [hg]
        exact (C44_set d spare _ 0 _ d.makeMsg m hm (x :: hs) (by simp) h3).2.2.2.2.1

/-- The ID, and the routers or handlers, that the option asks for: those of the option if it names both a router (handlers) and an ID other than 99999, otherwise the defaults; handlers come after the default one. -/
def hbId (slices : Bool) (o : Opt H) : UInt32 := if hbGiven slices o then o.msgID else 99999

def hbHandlers (d : Defaults H) (slices : Bool) (o : Opt H) : List (Option H) :=
  match slices, hbGiven slices o with
  | false, true => [o.router]
  | false, false => [some d.router]
  | true, true => some d.handle :: o.routerSlices
  | true, false => [some d.handle]

/-- The handlers of slice mode are those of a history of calls `ops` (empty in plain mode). -/
def HbSide (spare : Nat → Nat) (s : Side H) (ops : List (Router.Op H)) : Prop := Router.Sensible ops ∧ s.rs = (Router.State.new H).run spare ops

/-- **C127 (exact).** Starting heartbeats with an option, on a server or client in the mode it runs in: it panics exactly if the heartbeat ID has a route already. Otherwise heartbeats are sent with that ID and with data
made by the function of the option, messages with that ID are handled by the functions used before followed by those of the option (or the default ones), and other messages are handled as before. -/
theorem C127_exact (d : Defaults H) (spare : Nat → Nat) (s : Side H) (ops : List (Router.Op H)) (hs : HbSide spare s ops) (interval : Int) (o : Opt H) :
    ((∃ e, serverStart d spare s interval (some o) = .error e) ↔ handles s.slices s (hbId s.slices o) ≠ none) ∧
      ∀ s', serverStart d spare s interval (some o) = .ok s' →
        beat s' = some (hbId s.slices o, some (o.makeMsg.getD d.makeMsg)) ∧
        (∃ v, s'.hc = some v ∧ v.interval = interval ∧ v.onRemoteNotAlive = some (o.onRemoteNotAlive.getD d.notAlive)) ∧
        handles s.slices s' (hbId s.slices o) = some ((if s.slices then Router.usedBy ops else []) ++ hbHandlers d s.slices o) ∧
        ∀ i, i ≠ hbId s.slices o → handles s.slices s' i = handles s.slices s i := by
  obtain ⟨hsens, hrs⟩ := hs
  obtain ⟨slices, apis, rs, hc⟩ := s
  dsimp only at *
  unfold serverStart
  dsimp only
  rw [hb_checker]
  dsimp only
  cases slices with
  | false =>
    have hid : (if hbGiven false o = true then o.msgID else 99999) = hbId false o := rfl
    have hr : [if (!false && hbGiven false o) = true then o.router else some d.router] = hbHandlers d false o := by
      unfold hbHandlers; cases hbGiven false o <;> rfl
    rw [hid]
    generalize (if (!false && hbGiven false o) = true then o.router else some d.router) = r at hr
    generalize hbId false o = id
    simp only [Bool.false_eq_true, if_false, handles, Router.addRouter]
    cases ha : apis id with
    | some x => exact ⟨⟨fun _ => by simp, fun _ => ⟨_, rfl⟩⟩, fun s' h => by cases h⟩
    | none =>
      refine ⟨⟨fun ⟨e, h⟩ => by (cases h), fun h => absurd rfl h⟩, ?_⟩
      intro s' h
      cases h
      refine ⟨rfl, ⟨_, rfl, rfl, rfl⟩, ?_, ?_⟩
      · simp [← hr]
      · intro i hi; simp [hi]
  | true =>
    have hid : (if hbGiven true o = true then o.msgID else 99999) = hbId true o := rfl
    have hr : (if (true && hbGiven true o) = true then some d.handle :: o.routerSlices else [some d.handle]) = hbHandlers d true o := by
      unfold hbHandlers; cases hbGiven true o <;> rfl
    rw [hid, hr]
    generalize hbHandlers d true o = l
    generalize hbId true o = id
    simp only [if_true, handles]
    have r := Router.rep_run spare ops hsens
    rw [← hrs] at r
    have ha := r.addHandler spare id l
    have get : ∀ {st : Router.State H} {a : Router.Abs H}, Router.Rep st a → ∀ i, st.getHandlers i = a.routes i := by
      intro st a r i
      unfold Router.State.getHandlers
      cases hi : st.apis i with
      | none => exact (r.noapi i hi).symm
      | some s => exact (r.api i s hi).2.2.2.symm
    have hold := get r
    cases hadd : rs.addHandler spare id l with
    | error p =>
      rw [hadd] at ha
      exact ⟨⟨fun _ => by rw [hold]; exact ha, fun _ => ⟨_, rfl⟩⟩, fun s' h => by cases h⟩
    | ok rs' =>
      rw [hadd] at ha
      obtain ⟨hn, r'⟩ := ha
      refine ⟨⟨fun ⟨e, h⟩ => by (cases h), fun h => absurd (by rw [hold]; exact hn) h⟩, ?_⟩
      intro s' h
      cases h
      refine ⟨rfl, ⟨_, rfl, rfl, rfl⟩, ?_, ?_⟩
      · rw [get r']; simp [Router.absOf]
      · intro i hi; dsimp only; rw [get r', hold]; simp [hi]

/-- Without an option: as with an option that asks for nothing. -/
theorem C127_plain (d : Defaults H) (spare : Nat → Nat) (s : Side H) (interval : Int) (m : UInt32) :
    serverStart d spare s interval none = serverStart d spare s interval (some ⟨none, none, m, none, []⟩) := by
  have : checker d spare s.slices interval none = checker d spare s.slices interval (some ⟨none, none, m, none, []⟩) := by
    rw [hb_checker]
    have hg : hbGiven s.slices (⟨none, none, m, none, []⟩ : Opt H) = false := by unfold hbGiven; cases s.slices <;> rfl
    rw [hg]
    have h1 := (C44_new d spare [] interval).1
    simpa [checker, setup, State.run, State.empty] using h1
  unfold serverStart
  rw [this]

/-- **C127 (partial: plain mode, a router and an ID other than 99999 that is not in use).** A server and a client started with the same ID and each with a router of its own: what each sends as heartbeats is handled
at the other end by exactly the router given there. -/
theorem C127_partial (d : Defaults H) (spare : Nat → Nat) (s c : Side H) (ops : List (Router.Op H)) (hs : HbSide spare s ops) (hc : HbSide spare c ops) (i j : Int) (o p : Opt H) (rs rc : H)
    (hmode : s.slices = false) (hors : o.router = some rs) (hprc : p.router = some rc) (hid : o.msgID = p.msgID) (hne : o.msgID ≠ 99999)
    (hfs : s.apis o.msgID = none) (hfc : c.apis o.msgID = none) :
    ∃ s' c', serverStart d spare s i (some o) = .ok s' ∧ clientStart d spare c j (some p) = .ok c' ∧
      beat s' = some (o.msgID, some (o.makeMsg.getD d.makeMsg)) ∧ handles false c' o.msgID = some [some rc] ∧
      beat c' = some (o.msgID, some (p.makeMsg.getD d.makeMsg)) ∧ handles false s' o.msgID = some [some rs] := by
  have go : ∀ (s : Side H) (i : Int) (o : Opt H) (r : H), HbSide spare s ops → s.slices = false → o.router = some r → o.msgID ≠ 99999 → s.apis o.msgID = none →
      ∃ s', serverStart d spare s i (some o) = .ok s' ∧ beat s' = some (o.msgID, some (o.makeMsg.getD d.makeMsg)) ∧ handles false s' o.msgID = some [some r] := by
    intro s i o r hs hm hr hn hf
    obtain ⟨h1, h2⟩ := C127_exact d spare s ops hs i o
    have hg : hbGiven false o = true := by simp [hbGiven, hr, hn]
    have hidd : hbId false o = o.msgID := by simp [hbId, hg]
    have hh : hbHandlers d false o = [some r] := by unfold hbHandlers; rw [hg]; simp [hr]
    rw [hm, hidd, hh] at h2
    rw [hm, hidd] at h1
    cases hx : serverStart d spare s i (some o) with
    | error e => exact absurd (by simp [handles, hf]) (h1.mp ⟨e, hx⟩)
    | ok s' =>
      obtain ⟨a, _, b, _⟩ := h2 s' hx
      exact ⟨s', rfl, a, by simpa using b⟩
  obtain ⟨s', hs', a, b⟩ := go s i o rs hs hmode hors hne hfs
  obtain ⟨c', hc', a', b'⟩ := go { c with slices := false } j p rc hc rfl hprc (hid ▸ hne) (hid ▸ hfc)
  rw [← hid] at a' b'
  exact ⟨s', c', hs', hc', a, b', a', b⟩

/-- **C127 (refuted: the default ID with a router).** A router given together with the ID 99999 is not used. -/
theorem C127_refuted_default (d : Defaults H) (spare : Nat → Nat) (s : Side H) (ops : List (Router.Op H)) (hs : HbSide spare s ops) (i : Int) (o : Opt H) (hmode : s.slices = false) (hid : o.msgID = 99999) (s' : Side H)
    (h : serverStart d spare s i (some o) = .ok s') : handles false s' 99999 = some [some d.router] := by
  have hg : hbGiven false o = false := by simp [hbGiven, hid]
  have := ((C127_exact d spare s ops hs i o).2 s' h).2.2.1
  rw [hmode] at this
  simpa [hbId, hbHandlers, hg] using this

/-- **C127 (refuted: an ID without a router).** The ID of the option is not used: heartbeats are sent with 99999. -/
theorem C127_refuted_id (d : Defaults H) (spare : Nat → Nat) (s : Side H) (ops : List (Router.Op H)) (hs : HbSide spare s ops) (i : Int) (o : Opt H) (hnone : if s.slices then o.routerSlices = [] else o.router = none) (s' : Side H)
    (h : serverStart d spare s i (some o) = .ok s') : beat s' = some (99999, some (o.makeMsg.getD d.makeMsg)) := by
  have hg : hbGiven s.slices o = false := by
    unfold hbGiven; cases hm : s.slices <;> rw [hm] at hnone <;> simp at hnone <;> simp [hnone]
  have := ((C127_exact d spare s ops hs i o).2 s' h).1
  simpa [hbId, hg] using this

/-- **C127 (refuted: slice mode).** The handlers of the option are not the only ones: the default handler is called first. -/
theorem C127_refuted_slices (d : Defaults H) (spare : Nat → Nat) (s : Side H) (ops : List (Router.Op H)) (hs : HbSide spare s ops) (i : Int) (o : Opt H) (hmode : s.slices = true) (hgiven : o.routerSlices ≠ [])
    (hid : o.msgID ≠ 99999) (s' : Side H) (h : serverStart d spare s i (some o) = .ok s') :
    handles true s' o.msgID = some (Router.usedBy ops ++ some d.handle :: o.routerSlices) := by
  have hg : hbGiven true o = true := by
    unfold hbGiven; cases hl : o.routerSlices with
    | nil => exact absurd hl hgiven
    | cons x l => simp [hid]
  have := ((C127_exact d spare s ops hs i o).2 s' h).2.2.1
  rw [hmode] at this
  simpa [hbId, hbHandlers, hg] using this

/-- **C127 (refuted: a client in a process with slice mode on).** A client has no way to give handlers: its router goes into the other table, and every heartbeat it receives, unless it made a route itself, is dropped. -/
theorem C127_refuted_client (d : Defaults H) (spare : Nat → Nat) (c : Side H) (i : Int) (o : Opt H) (id : UInt32) (c' : Side H)
    (h : clientStart d spare c i (some o) = .ok c') (hno : c.rs.getHandlers id = none) : handles true c' id = none := by
  unfold clientStart serverStart at h
  dsimp only at h
  rw [hb_checker] at h
  dsimp only at h
  simp only [Bool.false_eq_true, if_false] at h
  split at h
  · cases h
  · cases h; exact hno

/-- **C127 (refuted: twice).** Starting heartbeats a second time with an option for the same ID panics. -/
theorem C127_refuted_twice (d : Defaults H) (spare : Nat → Nat) (s : Side H) (i j : Int) (o p : Opt H) (s' : Side H) (hmode : s.slices = false)
    (hid : hbId false o = hbId false p) (h : serverStart d spare s i (some o) = .ok s') : ∃ e, serverStart d spare s' j (some p) = .error e := by
  obtain ⟨slices, apis, rs, hc⟩ := s
  dsimp only at hmode
  subst hmode
  unfold serverStart at h ⊢
  dsimp only at h
  rw [hb_checker] at h
  dsimp only at h
  simp only [Bool.false_eq_true, if_false, Router.addRouter] at h
  have hid' : (if hbGiven false o = true then o.msgID else 99999) = (if hbGiven false p = true then p.msgID else 99999) := hid
  rw [hid'] at h
  split at h
  · cases h
  · rename_i heq
    cases h
    dsimp only
    rw [hb_checker]
    dsimp only
    simp only [Bool.false_eq_true, if_false, Router.addRouter]
    split at heq
    · cases heq
    · cases heq
      simp only [if_true]
      exact ⟨_, rfl⟩

/-- A server without routes: starting heartbeats with ID 7 and router 5 works, and a second time panics. -/
example (d : Defaults Nat) : ∃ s', serverStart d (fun _ => 0) ⟨false, fun _ => none, Router.State.new Nat, none⟩ 10 (some ⟨none, none, 7, some 5, []⟩) = .ok s' ∧ handles false s' 7 = some [some 5] ∧
    ∃ e, serverStart d (fun _ => 0) s' 10 (some ⟨none, none, 7, some 6, []⟩) = .error e := by
  have hs : HbSide (fun _ => 0) (⟨false, fun _ => none, Router.State.new Nat, none⟩ : Side Nat) [] := ⟨fun pre o post h => by (cases pre <;> cases h), rfl⟩
  obtain ⟨s', c', h1, _, _, _, _, h5⟩ := C127_partial d (fun _ => 0) _ _ [] hs hs 10 10 ⟨none, none, 7, some 5, []⟩ ⟨none, none, 7, some 6, []⟩ 5 6 rfl rfl rfl rfl (by decide) rfl rfl
  exact ⟨s', h1, h5, C127_refuted_twice d _ _ _ _ ⟨none, none, 7, some 5, []⟩ _ s' rfl rfl h1⟩

/-- A server in slice mode with a function in use everywhere (1): the handlers of heartbeats are that one, the default one and the one given (5). -/
example (d : Defaults Nat) : ∃ s', serverStart d (fun _ => 0) ⟨true, fun _ => none, (Router.State.new Nat).run (fun _ => 0) [.use [some 1]], none⟩ 10 (some ⟨none, none, 7, none, [some 5]⟩) = .ok s' ∧
    handles true s' 7 = some [some 1, some d.handle, some 5] := by
  have hs : HbSide (fun _ => 0) (⟨true, fun _ => none, (Router.State.new Nat).run (fun _ => 0) [.use [some 1]], none⟩ : Side Nat) [.use [some 1]] := by
    refine ⟨fun pre o post h => ?_, rfl⟩
    cases pre with
    | nil => cases h; exact trivial
    | cons x l => cases l <;> cases h
  have hx := C127_exact d (fun _ => 0) _ _ hs 10 ⟨none, none, 7, none, [some 5]⟩
  cases h : serverStart d (fun _ => 0) ⟨true, fun _ => none, (Router.State.new Nat).run (fun _ => 0) [.use [some 1]], none⟩ 10 (some ⟨none, none, 7, none, [some 5]⟩) with
  | error e => exact absurd rfl (hx.1.mp ⟨e, h⟩)
  | ok s' => exact ⟨s', rfl, C127_refuted_slices d _ _ _ hs _ _ rfl (by simp) (by decide) s' h⟩

end Zinx.Props
