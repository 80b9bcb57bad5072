import Verif.Model.Servers
import Verif.Props.Conf

/-! # C93: several servers in one process -/

namespace Zinx.Props

open Zinx Zinx.Conf Zinx.Servers

/-- The calls on, and the creation of, server `i`. -/
def about (i : Nat) : Servers.Label → Bool
  | .create j _ => j == i
  | .op j _ => j == i

/-- The two configurations agree in all that a running server reads. -/
structure SameRun (g h : Config) : Prop where
  wmode : g.workerMode = h.workerMode
  psize : g.workerPoolSize = h.workerPoolSize
  mconn : g.maxConn = h.maxConn
  rmode : g.routerSlicesMode = h.routerSlicesMode
  smode : g.mode = h.mode
  beat : g.heartbeatMax = h.heartbeatMax
  pack : g.maxPacketSize = h.maxPacketSize

theorem sameRun_made {g h : Config} (m : Maker) (e : SameRun g h) : SameRun (made m g) (made m h) := by
  have key : ∀ u : Config, SameRun (userConfToGlobal u g).1 (userConfToGlobal u h).1 := by
    intro u
    obtain ⟨h1, h2, h3, h4, h5, h6, h7⟩ := e
    constructor
    · simp only [userConfToGlobal, setIf_get Config.workerMode, ite_self, h1]
    · simp only [userConfToGlobal, setIf_get Config.workerPoolSize, ite_self, h2]
    · simp only [userConfToGlobal, setIf_get Config.maxConn, ite_self, h3]
    · simp only [userConfToGlobal, setIf_get Config.routerSlicesMode, ite_self, h4]
    · simp only [userConfToGlobal, setIf_get Config.mode, ite_self, h5]
    · simp only [userConfToGlobal, setIf_get Config.heartbeatMax, ite_self, h6]
    · simp only [userConfToGlobal, setIf_get Config.maxPacketSize, ite_self, h7]
  have fin : ∀ a b : Config, SameRun a b → SameRun (settle a) (settle b) := by
    intro a b e
    obtain ⟨h1, h2, h3, h4, h5, h6, h7⟩ := e
    unfold settle
    rw [h1]
    split <;> (constructor <;> simp_all)
  cases m with
  | plain => exact fin _ _ e
  | user u => exact fin _ _ (key u)
  | slices => exact fin _ _ ⟨e.wmode, e.psize, e.mconn, rfl, e.smode, e.beat, e.pack⟩
  | userSlices u => exact fin _ _ (key u)

theorem SameRun.trans {a b c : Config} (h : SameRun a b) (h' : SameRun b c) : SameRun a c :=
  ⟨h.1.trans h'.1, h.2.trans h'.2, h.3.trans h'.3, h.4.trans h'.4, h.5.trans h'.5, h.6.trans h'.6, h.7.trans h'.7⟩

theorem SameRun.symm {a b : Config} (h : SameRun a b) : SameRun b a := ⟨h.1.symm, h.2.symm, h.3.symm, h.4.symm, h.5.symm, h.6.symm, h.7.symm⟩

theorem SameRun.refl (a : Config) : SameRun a a := ⟨rfl, rfl, rfl, rfl, rfl, rfl, rfl⟩

/-- Equal up to the copied settings. -/
def alike (x y : Server) : Prop := y = { x with conf := y.conf } ∧ x.conf.routerSlicesMode = y.conf.routerSlicesMode

theorem alike_new {g h : Config} (e : SameRun g h) : alike (newServer g) (newServer h) := by
  obtain ⟨h1, h2, h3, h4, h5, h6, h7⟩ := e
  refine ⟨?_, h4⟩
  simp [newServer, queueLen, h1, h2, h3]

theorem alike_local {g h : Config} (e : SameRun g h) {x x' y : Server} {o : Op} (hx : alike x x') (hl : Local g x o y) : ∃ y', Local h x' o y' ∧ alike y y' := by
  obtain ⟨hx1, hx2⟩ := hx
  generalize hc : x'.conf = c at hx1 hx2
  subst hx1
  obtain ⟨h1, h2, h3, h4, h5, h6, h7⟩ := e
  cases hl with
  | addRouter id a b => exact ⟨_, .addRouter _ id (by rw [← a]; exact hx2.symm) b, rfl, hx2⟩
  | addRouterPanic id a => exact ⟨_, .addRouterPanic _ id (by rw [← hx2]; exact a), rfl, hx2⟩
  | addSlices id a b => exact ⟨_, .addSlices _ id (by rw [← a]; exact hx2.symm) b, rfl, hx2⟩
  | addSlicesPanic id a => exact ⟨_, .addSlicesPanic _ id (by rw [← hx2]; exact a), rfl, hx2⟩
  | start a => rw [h5]; exact ⟨_, .start _ a, rfl, hx2⟩
  | startPanic a => exact ⟨_, .startPanic _ a, rfl, hx2⟩
  | refuse c' a => exact ⟨_, .refuse _ c' (by rw [← h3]; exact a), rfl, hx2⟩
  | connectFree c' w f a b d k => exact ⟨_, .connectFree _ c' w f (by rw [← h3]; exact a) (by rw [← h1]; exact b) d k, rfl, hx2⟩
  | connectExtra c' w f a b d k l n => exact ⟨_, .connectExtra _ c' w f (by rw [← h3]; exact a) (by rw [← h1]; exact b) d k l n, rfl, hx2⟩
  | connectHash c' a b d => exact ⟨_, .connectHash _ c' (by rw [← h3]; exact a) (by rw [← h1]; exact b) (by rw [← h1]; exact d), rfl, hx2⟩
  | messageNoPool c' w id a b => rw [h4]; exact ⟨_, .messageNoPool _ c' w id a b, rfl, hx2⟩
  | message c' w id a b d => rw [h4]; exact ⟨_, .message _ c' w id a b d, rfl, hx2⟩
  | messageBlocked c' w id a b d => exact ⟨_, .messageBlocked _ c' w id a b d, rfl, hx2⟩
  | messagePanic c' w id a b d => exact ⟨_, .messagePanic _ c' w id a b d, rfl, hx2⟩
  | leaveHash c' w a b d => exact ⟨_, .leaveHash _ c' w a (by rw [← h1]; exact b) (by rw [← h1]; exact d), rfl, hx2⟩
  | leaveFree c' w f a b d => exact ⟨_, .leaveFree _ c' w f a (by rw [← h1]; exact b) d, rfl, hx2⟩
  | leaveFreeNil c' w a b d => exact ⟨_, .leaveFreeNil _ c' w a (by rw [← h1]; exact b) d, rfl, hx2⟩
  | leaveExtra c' w f a b d k l => exact ⟨_, .leaveExtra _ c' w f a (by rw [← h1]; exact b) d k l, rfl, hx2⟩
  | leaveExtraNil c' w a b d k l => exact ⟨_, .leaveExtraNil _ c' w a (by rw [← h1]; exact b) d k l, rfl, hx2⟩
  | leaveExtraPanic c' w a b d k => exact ⟨_, .leaveExtraPanic _ c' w a (by rw [← h1]; exact b) d k, rfl, hx2⟩
  | alive d => rw [h6]; exact ⟨_, .alive _ d, rfl, hx2⟩
  | unpack n a => rw [h7]; exact ⟨_, .unpack _ n a, rfl, hx2⟩

/-- Every way of creating a server that is used leaves the same settings for running servers, whether it is the first or comes after another. -/
def settled (g : Config) (ls : List Servers.Label) : Prop :=
  ∀ i m j m', Label.create i m ∈ ls → Label.create j m' ∈ ls → SameRun (made m g) (made m' g) ∧ SameRun (made m (made m' g)) (made m' g)

/-- The process, and the process with server `i` alone. -/
structure Alone (g : Config) (i : Nat) (ls : List Servers.Label) (t t' : Servers.State) : Prop where
  glob : (∀ j m, Label.create j m ∉ ls) ∧ t.glob = g ∨ (∃ j m, Label.create j m ∈ ls) ∧ ∀ j m, Label.create j m ∈ ls → SameRun t.glob (made m g)
  srv : t.srv i = none ∧ t'.srv i = none ∧ t'.glob = g ∨
    ∃ x x' m, t.srv i = some x ∧ t'.srv i = some x' ∧ alike x x' ∧ Label.create i m ∈ ls ∧ SameRun t'.glob (made m g)

theorem alone_create {g : Config} {i : Nat} {ls : List Servers.Label} {s t' : Servers.State} (hi : Alone g i ls s t') (j : Nat) (m : Maker) (hs : settled g (ls ++ [.create j m]))
    (hn : s.srv j = none) (hok : m.ok) : ∃ t2, Steps Servers.Step t' ([Label.create j m].filter (about i)) t2 ∧
      Alone g i (ls ++ [.create j m]) { glob := made m s.glob, srv := fun k => if k = j then some (newServer (made m s.glob)) else s.srv k } t2 := by
  have hglob : ∀ j' m', Label.create j' m' ∈ ls ++ [.create j m] → SameRun (made m s.glob) (made m' g) := by
    have h0 : SameRun (made m s.glob) (made m g) := by
      rcases hi.glob with ⟨_, h⟩ | ⟨⟨j', m', hm⟩, h⟩
      · rw [h]; exact SameRun.refl _
      · have := hs j m j' m' (by simp) (by simp [hm])
        exact (sameRun_made m (h j' m' hm)).trans (this.2.trans this.1.symm)
    intro j' m' hm
    exact h0.trans (hs j m j' m' (by simp) hm).1
  have hg : (∃ j' m', Label.create j' m' ∈ ls ++ [.create j m]) ∧ ∀ j' m', Label.create j' m' ∈ ls ++ [.create j m] → SameRun (made m s.glob) (made m' g) :=
    ⟨⟨j, m, by simp⟩, hglob⟩
  by_cases hji : j = i
  · subst hji
    rcases hi.srv with ⟨_, h2, h3⟩ | ⟨x, _, _, h, _⟩
    · have hf : [Label.create j m].filter (about j) = [Label.create j m] := by simp [about]
      rw [hf]
      refine ⟨_, .cons (.create t' j m h2 hok) (.nil _), .inr hg, .inr ⟨newServer (made m s.glob), newServer (made m t'.glob), m, if_pos rfl, if_pos rfl, ?_, by simp, ?_⟩⟩
      · rw [h3]
        exact alike_new (hglob j m (by simp))
      · show SameRun (made m t'.glob) (made m g)
        rw [h3]; exact SameRun.refl _
    · rw [hn] at h; cases h
  · have hf : [Label.create j m].filter (about i) = [] := by simp [about, hji]
    rw [hf]
    refine ⟨t', .nil _, .inr hg, ?_⟩
    have hne : ¬ i = j := fun h => hji h.symm
    rcases hi.srv with ⟨h1, h2, h3⟩ | ⟨x, x', m', h1, h2, h3, h4, h5⟩
    · exact .inl ⟨by simp only [if_neg hne]; exact h1, h2, h3⟩
    · exact .inr ⟨x, x', m', by simp only [if_neg hne]; exact h1, h2, h3, by simp [h4], h5⟩

theorem alone_op {g : Config} {i : Nat} {ls : List Servers.Label} {s t' : Servers.State} (hi : Alone g i ls s t') (j : Nat) (o : Op) (x y : Server)
    (hx : s.srv j = some x) (hl : Local s.glob x o y) : ∃ t2, Steps Servers.Step t' ([Label.op j o].filter (about i)) t2 ∧
      Alone g i (ls ++ [.op j o]) { s with srv := fun k => if k = j then some y else s.srv k } t2 := by
  have hg : (∀ j' m, Label.create j' m ∉ ls ++ [.op j o]) ∧ s.glob = g ∨
      (∃ j' m, Label.create j' m ∈ ls ++ [.op j o]) ∧ ∀ j' m, Label.create j' m ∈ ls ++ [.op j o] → SameRun s.glob (made m g) := by
    have := hi.glob
    simpa using this
  by_cases hji : j = i
  · subst hji
    rcases hi.srv with ⟨h1, _, _⟩ | ⟨x1, x', m, h1, h2, h3, h4, h5⟩
    · rw [h1] at hx; cases hx
    · rw [hx] at h1
      obtain rfl : x = x1 := Option.some.inj h1
      have hsr : SameRun s.glob t'.glob := by
        rcases hi.glob with ⟨h, _⟩ | ⟨_, h⟩
        · exact absurd h4 (h _ _)
        · exact (h j m h4).trans h5.symm
      obtain ⟨y', hy, ha⟩ := alike_local hsr h3 hl
      have hf : [Label.op j o].filter (about j) = [Label.op j o] := by simp [about]
      rw [hf]
      exact ⟨_, .cons (.op t' j o x' y' h2 hy) (.nil _), hg, .inr ⟨y, y', m, if_pos rfl, if_pos rfl, ha, by simp [h4], h5⟩⟩
  · have hf : [Label.op j o].filter (about i) = [] := by simp [about, hji]
    rw [hf]
    refine ⟨t', .nil _, hg, ?_⟩
    have hne : ¬ i = j := fun h => hji h.symm
    rcases hi.srv with ⟨h1, h2, h3⟩ | ⟨x, x', m', h1, h2, h3, h4, h5⟩
    · exact .inl ⟨by simp only [if_neg hne]; exact h1, h2, h3⟩
    · exact .inr ⟨x, x', m', by simp only [if_neg hne]; exact h1, h2, h3, by simp [h4], h5⟩

/-- If all servers of the process are created with the same settings, as far as running servers read them (they may differ in names, addresses, ports, paths, KCP and log settings), each does what
it would do alone in the process. -/
theorem C93_partial (g : Config) (ls : List Servers.Label) (t : Servers.State) (h : Steps Servers.Step (Servers.init g) ls t) (hs : settled g ls) (i : Nat) :
    ∃ t', Steps Servers.Step (Servers.init g) (ls.filter (about i)) t' := by
  have key : settled g ls → ∃ t', Steps Servers.Step (Servers.init g) (ls.filter (about i)) t' ∧ Alone g i ls t t' := by
    refine Steps.invariant_trace (P := fun ls t => settled g ls → ∃ t', Steps Servers.Step (Servers.init g) (ls.filter (about i)) t' ∧ Alone g i ls t t') ?_ h ?_
    · intro ls s l t ih hst hs
      obtain ⟨t', h1, h2⟩ := ih (fun a m b m' ha hb => hs a m b m' (by simp [ha]) (by simp [hb]))
      rw [List.filter_append]
      cases hst with
      | create j m hn hok =>
        obtain ⟨t2, h3, h4⟩ := alone_create h2 j m hs hn hok
        exact ⟨t2, h1.append h3, h4⟩
      | op j o x y hx hl =>
        obtain ⟨t2, h3, h4⟩ := alone_op h2 j o x y hx hl
        exact ⟨t2, h1.append h3, h4⟩
    · intro _
      exact ⟨_, .nil _, .inl ⟨by simp, rfl⟩, .inl ⟨rfl, rfl, rfl⟩⟩
  obtain ⟨t', h', _⟩ := key hs
  exact ⟨t', h'⟩

/-- What is copied when a server is created stays: its copied settings, the size of its pool, the number of its queues. -/
theorem C93_copied (g : Config) (l1 l2 : List Servers.Label) (s t : Servers.State) (_ : Steps Servers.Step (Servers.init g) l1 s) (h : Steps Servers.Step s l2 t) (i : Nat) (x : Server)
    (hx : s.srv i = some x) : ∃ y, t.srv i = some y ∧ y.conf = x.conf ∧ y.pool = x.pool ∧ y.queues.length = x.queues.length := by
  refine h.invariant (P := fun t => ∃ y, t.srv i = some y ∧ y.conf = x.conf ∧ y.pool = x.pool ∧ y.queues.length = x.queues.length) ?_ ⟨x, hx, rfl, rfl, rfl⟩
  rintro s l t ⟨y, hy, h1, h2, h3⟩ hs
  cases hs with
  | create j m hn _ =>
    have : ¬ i = j := by rintro rfl; rw [hn] at hy; cases hy
    exact ⟨y, by simp only [if_neg this]; exact hy, h1, h2, h3⟩
  | op j o z w hz hl =>
    by_cases hji : i = j
    · subst hji
      rw [hy] at hz
      obtain rfl := Option.some.inj hz
      refine ⟨w, if_pos rfl, ?_⟩
      rw [← h1, ← h2, ← h3]
      cases hl <;> simp <;> omega
    · exact ⟨y, by simp only [if_neg hji]; exact hy, h1, h2, h3⟩

/-- With `NewServer` only, the settings stay. -/
theorem plain_glob {g : Config} {ls : List Servers.Label} {t : Servers.State} (h : Steps Servers.Step (Servers.init g) ls t) (hp : ∀ j m, Label.create j m ∈ ls → m = .plain) :
    t.glob.workerMode = g.workerMode ∧ t.glob.routerSlicesMode = g.routerSlicesMode := by
  revert hp
  refine Steps.invariant_trace (P := fun ls t => (∀ j m, Label.create j m ∈ ls → m = .plain) → t.glob.workerMode = g.workerMode ∧ t.glob.routerSlicesMode = g.routerSlicesMode) ?_ h
    (fun _ => ⟨rfl, rfl⟩)
  intro ls s l t ih hs hp
  have ih := ih (fun j m hm => hp j m (by simp [hm]))
  cases hs with
  | create j m _ _ =>
    obtain rfl := hp j m (by simp)
    refine ⟨Eq.trans ?_ ih.1, Eq.trans ?_ ih.2⟩
    · by_cases hb : s.glob.workerMode = "Bind" <;> simp [made, Maker.apply, settle, hb]
    · by_cases hb : s.glob.workerMode = "Bind" <;> simp [made, Maker.apply, settle, hb]
  | op j o x y hx hl => exact ih

/-- With `NewServer` only and without slices, a message whose ID has a router is not reported as not found. -/
theorem plain_finds {g : Config} (hg : g.routerSlicesMode = false) {ls : List Servers.Label} {i c id : Nat} {r : Result} {t : Servers.State}
    (h : Steps Servers.Step (Servers.init g) (ls ++ [.op i (.message c id r)]) t) (hp : ∀ j m, Label.create j m ∈ ls → m = .plain) (ha : Label.op i (.addRouter id true) ∈ ls) : r ≠ .notFound := by
  obtain ⟨s, h1, h2⟩ := Steps.unsnoc h
  have hr : ∃ x, s.srv i = some x ∧ id ∈ x.apis := by
    revert ha
    refine Steps.invariant_trace (P := fun ls s => Label.op i (.addRouter id true) ∈ ls → ∃ x, s.srv i = some x ∧ id ∈ x.apis) ?_ h1 (by simp)
    intro ls s l t ih hs ha
    cases hs with
    | create j m hn _ =>
      obtain ⟨x, hx, hm⟩ := ih (by simpa using ha)
      have : ¬ i = j := by rintro rfl; rw [hn] at hx; cases hx
      exact ⟨x, by simp only [if_neg this]; exact hx, hm⟩
    | op j o x y hx hl =>
      by_cases hji : i = j
      · subst hji
        refine ⟨y, if_pos rfl, ?_⟩
        rcases List.mem_append.mp ha with ha | ha
        · obtain ⟨z, hz, hm⟩ := ih ha
          rw [hx] at hz
          obtain rfl := Option.some.inj hz
          cases hl <;> simp [hm]
        · simp at ha
          subst ha
          cases hl; simp
      · obtain ⟨z, hz, hm⟩ := ih (by simpa [hji] using ha)
        exact ⟨z, by simp only [if_neg hji]; exact hz, hm⟩
  obtain ⟨x, hx, hm⟩ := hr
  have hgl := (plain_glob h1 hp).2
  rw [hg] at hgl
  cases h2 with
  | op _ _ x' y hx' hl =>
    rw [hx] at hx'
    obtain rfl := Option.some.inj hx'
    cases hl <;> simp [handled, hgl, hm]

/-- These calls can be made with these results, but not those of them that are about server `i` alone. -/
def Disturbed (i : Nat) (ls : List Servers.Label) : Prop :=
  (∃ t, Steps Servers.Step (Servers.init (defaults "/")) ls t) ∧ ¬ ∃ t', Steps Servers.Step (Servers.init (defaults "/")) (ls.filter (about i)) t'

/-- Not true in general: once `NewDefaultRouterSlicesServer` has been called, no router of a server created before is found any more. -/
theorem C93_routes_refuted : Disturbed 0 [.create 0 .plain, .op 0 (.addRouter 1 true), .op 0 (.start (some [.tcp])), .op 0 (.connect 1 (some 1)), .create 1 .slices, .op 0 (.message 1 1 .notFound)] := by
  refine ⟨⟨_, .cons (.create _ 0 .plain rfl trivial) (.cons (.op _ 0 _ _ _ rfl (.addRouter _ 1 rfl (by simp [newServer]))) (.cons (.op _ 0 _ _ _ rfl (.start _ (by decide)))
    (.cons (.op _ 0 _ _ _ rfl (.connectHash _ 1 (by decide) (fun h => absurd h (by decide)) (fun h => absurd h (by decide)))) (.cons (.create _ 1 .slices rfl trivial)
    (.cons (.op _ 0 _ _ _ rfl (.message _ 1 1 1 (by decide) (by decide) (by decide))) (.nil _))))))⟩, ?_⟩
  rintro ⟨t', h⟩
  refine plain_finds (g := defaults "/") rfl (ls := [.create 0 .plain, .op 0 (.addRouter 1 true), .op 0 (.start (some [.tcp])), .op 0 (.connect 1 (some 1))]) h ?_ (by simp) rfl
  intro j m hm
  simp at hm
  exact hm.2

/-- A user configuration with one setting. -/
def bindConf : Config := { zero with workerMode := "Bind" }
def limitConf (n : Int) : Config := { zero with maxConn := n }
def modeConf (m : String) : Config := { zero with mode := m }
def beatConf (n : Int) : Config := { zero with heartbeatMax := n }

/-- Nor for the end of connections: once a server in bind mode has been created, every connection of a server created before ends with a panic. -/
theorem C93_workers_refuted : Disturbed 0 [.create 0 .plain, .op 0 (.connect 1 (some 1)), .create 1 (.user bindConf), .op 0 (.disconnect 1 false)] := by
  refine ⟨⟨_, .cons (.create _ 0 .plain rfl trivial) (.cons (.op _ 0 _ _ _ rfl (.connectHash _ 1 (by decide) (fun h => absurd h (by decide)) (fun h => absurd h (by decide)))) (.cons (.create _ 1 (.user bindConf) rfl trivial)
    (.cons (.op _ 0 _ _ _ rfl (.leaveFreeNil _ 1 1 (by decide) (.inl (by decide)) (by decide))) (.nil _))))⟩, ?_⟩
  rintro ⟨t', h⟩
  obtain ⟨s, h1, h2⟩ := Steps.unsnoc (ls := [Label.create 0 .plain, .op 0 (.connect 1 (some 1))]) h
  have hg := (plain_glob h1 (by intro j m hm; simp at hm; exact hm.2)).1
  cases h2 with
  | op _ _ x y hx hl =>
    cases hl <;> simp_all [defaults]

/-- Nor for the limit of connections: it is that of the server created last. -/
theorem C93_limit_refuted : Disturbed 0 [.create 0 (.user (limitConf 2)), .op 0 (.connect 1 (some 1)), .create 1 (.user (limitConf 1)), .op 0 (.connect 2 none)] := by
  refine ⟨⟨_, .cons (.create _ 0 _ rfl trivial) (.cons (.op _ 0 _ _ _ rfl (.connectHash _ 1 (by decide) (fun h => absurd h (by decide)) (fun h => absurd h (by decide)))) (.cons (.create _ 1 _ rfl trivial)
    (.cons (.op _ 0 _ _ _ rfl (.refuse _ 2 (by decide))) (.nil _))))⟩, ?_⟩
  rintro ⟨t', h⟩
  cases h with
  | cons h1 h =>
    cases h1 with
    | create _ _ _ _ =>
    cases h with
    | cons h2 h =>
      cases h2 with
      | op _ _ x y hx hl =>
      obtain rfl := Option.some.inj hx
      cases h with
      | cons h3 _ =>
        cases h3 with
        | op _ _ x' y' hx' hl' =>
        obtain rfl := Option.some.inj hx'
        cases hl' with
        | refuse _ hm =>
          have hg : (made (.user (limitConf 2)) (defaults "/")).maxConn = 2 := by decide
          have hm : (made (.user (limitConf 2)) (defaults "/")).maxConn ≤ y.conns.length := hm
          rw [hg] at hm
          cases hl <;> simp [newServer] at hm

/-- Nor for what is listened to: it is the mode of the server created last before the start. -/
theorem C93_mode_refuted : Disturbed 0 [.create 0 (.user (modeConf "websocket")), .create 1 (.user (modeConf "kcp")), .op 0 (.start (some [.kcp]))] := by
  refine ⟨⟨_, .cons (.create _ 0 _ rfl trivial) (.cons (.create _ 1 _ rfl trivial) (.cons (.op _ 0 _ _ _ rfl (.start _ (by decide))) (.nil _)))⟩, ?_⟩
  rintro ⟨t', h⟩
  cases h with
  | cons h1 h =>
    cases h1 with
    | create _ _ _ _ =>
    cases h with
    | cons h2 h =>
      cases h2 with
      | op _ _ x y hx hl =>
      generalize hl0 : (some [Listener.kcp]) = l at hl
      have hne : listeners (made (.user (modeConf "websocket")) (defaults "/")).mode ≠ [.kcp] := by decide
      cases hl with
      | start _ => exact hne (Option.some.inj hl0).symm
      | startPanic _ => cases hl0

/-- Nor for the heartbeat: a connection is declared dead by the limit of the server created last. -/
theorem C93_heartbeat_refuted : Disturbed 0 [.create 0 (.user (beatConf 60)), .create 1 (.user (beatConf 5)), .op 0 (.alive 10000000000 false)] := by
  refine ⟨⟨_, .cons (.create _ 0 _ rfl trivial) (.cons (.create _ 1 _ rfl trivial) (.cons (.op _ 0 _ _ _ rfl (.alive _ _)) (.nil _)))⟩, ?_⟩
  rintro ⟨t', h⟩
  cases h with
  | cons h1 h =>
    cases h1 with
    | create _ _ _ _ =>
    cases h with
    | cons h2 h =>
      cases h2 with
      | op _ _ x y hx hl =>
      generalize hl0 : false = l at hl
      cases hl with
      | alive _ =>
        have : decide ((10000000000 : Int) < Alive.limit (made (.user (beatConf 60)) (defaults "/")).heartbeatMax) = true := by decide
        exact absurd (hl0.trans this) (by simp)

private theorem connect_conns {g : Config} {x y : Server} {c w : Nat} (h : Local g x (.connect c (some w)) y) : y.conns = (c, w) :: x.conns ∧ y.pool = x.pool := by
  generalize ho : some w = o at h
  cases h <;> cases ho <;> exact ⟨rfl, rfl⟩

private theorem leave_conns {g : Config} {x y : Server} {c : Nat} {b : Bool} (h : Local g x (.disconnect c b) y) {e : Nat × Nat} (he : e ∈ y.conns) : e ∈ x.conns := by
  cases h <;> exact List.mem_of_mem_erase he

/-- In dynamic bind mode, when a connection with an extra worker has ended without panic, no message for that worker is handled: the reader of a connection that shares it panics. -/
theorem C93_extra_closed {g : Config} {x y z : Server} {c c' id : Nat} {r : Result} (hg : g.workerMode = "DynamicBind") (h : Local g x (.disconnect c true) y) (hm : Local g y (.message c' id r) z)
    (hp : 0 < x.pool) (hc : ∀ w, (c, w) ∈ x.conns → x.pool ≤ w ∧ ∀ w', (c', w') ∈ y.conns → w' = w) : r = .panicked := by
  have hb : (g.workerMode = "Bind") = False := by rw [hg]; simp
  have key : ∃ w, (c, w) ∈ x.conns ∧ y.queues[w]? = some .closed ∧ y.pool = x.pool := by
    cases h with
    | leaveHash _ w h1 h2 h3 => exact absurd hg h3
    | leaveFree _ w f h1 h2 h3 => rcases h2 with h2 | ⟨_, h2⟩; exact absurd h2 (by rw [hb]; simp); have := (hc w h1).1; omega
    | leaveExtra _ w f h1 h2 h3 h4 h5 =>
      refine ⟨w, h1, ?_, rfl⟩
      have hl := (List.getElem?_eq_some_iff.1 h4).1
      simp [hl]
  obtain ⟨w, h1, h2, h3⟩ := key
  have hw := (hc w h1).2
  cases hm with
  | messageNoPool _ w' h4 h5 => omega
  | message _ w' _ h4 h5 h6 => rw [hw w' h4, h2] at h6; cases h6
  | messageBlocked _ w' _ h4 h5 h6 => rw [hw w' h4, h2] at h6; cases h6
  | messagePanic _ w' h4 h5 h6 => rfl

def dynConf : Config := { zero with workerMode := "DynamicBind", workerPoolSize := 1, maxConn := 4 }

/-- Nor for extra workers: once a server in bind mode has been created, the extra worker of a connection that ends goes on working, and the messages of another connection that shares it are handled. -/
theorem C93_extra_refuted : Disturbed 0 [.create 0 (.user dynConf), .op 0 (.connect 1 (some 0)), .op 0 (.connect 2 (some 1)), .op 0 (.connect 3 (some 1)), .create 1 (.user bindConf),
    .op 0 (.disconnect 2 true), .op 0 (.message 3 7 .notFound)] := by
  refine ⟨⟨_, .cons (.create _ 0 _ rfl trivial) (.cons (.op _ 0 _ _ _ rfl (.connectFree _ 1 0 [0] (by decide) (.inr (by decide)) (by decide) (by decide)))
    (.cons (.op _ 0 _ _ _ rfl (.connectExtra _ 2 1 [1, 2, 3] (by decide) (by decide) (fun w f h => by cases h; simp) (by decide) (by decide) (by decide)))
    (.cons (.op _ 0 _ _ _ rfl (.connectExtra _ 3 1 [1, 2, 3] (by decide) (by decide) (fun w f h => by cases h; simp) (by decide) (by decide) (by decide)))
    (.cons (.create _ 1 _ rfl trivial) (.cons (.op _ 0 _ _ _ rfl (.leaveFree _ 2 1 [] (by decide) (.inl (by decide)) (by decide)))
    (.cons (.op _ 0 _ _ _ rfl (.message _ 3 1 7 (by decide) (by decide) (by decide))) (.nil _)))))))⟩, ?_⟩
  rintro ⟨t', h⟩
  cases h with
  | cons h1 h =>
  cases h1 with
  | create _ _ _ _ =>
  cases h with
  | cons h2 h =>
  cases h2 with
  | op _ _ x1 y1 hx1 hl1 =>
  cases h with
  | cons h3 h =>
  cases h3 with
  | op _ _ x2 y2 hx2 hl2 =>
  cases h with
  | cons h4 h =>
  cases h4 with
  | op _ _ x3 y3 hx3 hl3 =>
  cases h with
  | cons h5 h =>
  cases h5 with
  | op _ _ x4 y4 hx4 hl4 =>
  cases h with
  | cons h6 h =>
  cases h6 with
  | op _ _ x5 y5 hx5 hl5 =>
  obtain rfl := Option.some.inj hx1
  obtain rfl := Option.some.inj hx2
  obtain rfl := Option.some.inj hx3
  obtain rfl := Option.some.inj hx4
  obtain rfl := Option.some.inj hx5
  have c1 := connect_conns hl1
  have c2 := connect_conns hl2
  have c3 := connect_conns hl3
  have hk : y3.conns = [(3, 1), (2, 1), (1, 0)] := by rw [c3.1, c2.1, c1.1]; rfl
  have hp : y3.pool = 1 := by rw [c3.2, c2.2, c1.2]; decide
  have := C93_extra_closed (show (made (.user dynConf) (defaults "/")).workerMode = "DynamicBind" by decide) hl4 hl5 (by omega) (by
    intro w hw
    rw [hk] at hw
    simp at hw
    subst hw
    refine ⟨by omega, fun w' hw' => ?_⟩
    have := leave_conns hl4 hw'
    rw [hk] at this
    simp at this
    exact this)
  cases this

/-- Two connections on extra worker 1 of a server in dynamic bind mode: when the first has ended, a message of the second makes its reader panic. -/
example : ∃ t, Steps Servers.Step (Servers.init (defaults "/")) [.create 0 (.user dynConf), .op 0 (.connect 1 (some 0)), .op 0 (.connect 2 (some 1)), .op 0 (.connect 3 (some 1)),
    .op 0 (.disconnect 2 true), .op 0 (.message 3 7 .panicked)] t :=
  ⟨_, .cons (.create _ 0 _ rfl trivial) (.cons (.op _ 0 _ _ _ rfl (.connectFree _ 1 0 [0] (by decide) (.inr (by decide)) (by decide) (by decide)))
    (.cons (.op _ 0 _ _ _ rfl (.connectExtra _ 2 1 [1, 2, 3] (by decide) (by decide) (fun w f h => by cases h; simp) (by decide) (by decide) (by decide)))
    (.cons (.op _ 0 _ _ _ rfl (.connectExtra _ 3 1 [1, 2, 3] (by decide) (by decide) (fun w f h => by cases h; simp) (by decide) (by decide) (by decide)))
    (.cons (.op _ 0 _ _ _ rfl (.leaveExtra _ 2 1 [1, 2, 3] (by decide) (by decide) (by decide) (by decide) (by decide)))
    (.cons (.op _ 0 _ _ _ rfl (.messagePanic _ 3 1 7 (by decide) (by decide) (.inr (by decide)))) (.nil _))))))⟩

/-- A user configuration with a name and a port. -/
def portConf (n : String) (p : Int) : Config := { zero with name := n, tcpPort := p }

/-- Two servers that differ in name and port, one of them with a router; a message to each. -/
example : ∃ ls t, Steps Servers.Step (Servers.init (defaults "/")) ls t ∧ settled (defaults "/") ls ∧ Label.op 0 (.message 1 7 .router) ∈ ls ∧ Label.op 1 (.message 1 7 .notFound) ∈ ls := by
  refine ⟨[.create 0 (.user (portConf "a" 8000)), .create 1 (.user (portConf "b" 8001)), .op 0 (.addRouter 7 true), .op 0 (.start (some [.tcp])), .op 1 (.start (some [.tcp])),
      .op 0 (.connect 1 (some 1)), .op 1 (.connect 1 (some 1)), .op 0 (.message 1 7 .router), .op 1 (.message 1 7 .notFound)], _,
    .cons (.create _ 0 _ rfl trivial) (.cons (.create _ 1 _ rfl trivial) (.cons (.op _ 0 _ _ _ rfl (.addRouter _ 7 rfl (by simp [newServer])))
    (.cons (.op _ 0 _ _ _ rfl (.start _ (by decide))) (.cons (.op _ 1 _ _ _ rfl (.start _ (by decide)))
    (.cons (.op _ 0 _ _ _ rfl (.connectHash _ 1 (by decide) (fun h => absurd h (by decide)) (fun h => absurd h (by decide))))
    (.cons (.op _ 1 _ _ _ rfl (.connectHash _ 1 (by decide) (fun h => absurd h (by decide)) (fun h => absurd h (by decide))))
    (.cons (.op _ 0 _ _ _ rfl (.message _ 1 1 7 (by decide) (by decide) (by decide))) (.cons (.op _ 1 _ _ _ rfl (.message _ 1 1 7 (by decide) (by decide) (by decide))) (.nil _))))))))),
    ?_, by simp, by simp⟩
  intro i m j m' hm hm'
  simp at hm hm'
  rcases hm with ⟨_, rfl⟩ | ⟨_, rfl⟩ <;> rcases hm' with ⟨_, rfl⟩ | ⟨_, rfl⟩ <;> exact ⟨⟨rfl, rfl, rfl, rfl, rfl, rfl, rfl⟩, ⟨rfl, rfl, rfl, rfl, rfl, rfl, rfl⟩⟩

/-- A server of ten workers stays one when a server in bind mode, which has as many workers as connections may be, is created after it. -/
example : ∃ l1 l2 s t x, Steps Servers.Step (Servers.init (defaults "/")) l1 s ∧ Steps Servers.Step s l2 t ∧ s.srv 0 = some x ∧ x.pool = 10 ∧ t.glob.workerPoolSize = 12000 :=
  ⟨[.create 0 .plain], [.create 1 (.user bindConf)], _, _, _, .cons (.create _ 0 .plain rfl trivial) (.nil _), .cons (.create _ 1 _ rfl trivial) (.nil _), rfl, rfl, by decide⟩

end Zinx.Props
