import Verif.Props.Servers

/-!
# C93: what each of the servers does

What the calls on a server of the process answer, in terms of the calls before and of the global configuration at the time.
-/

namespace Zinx.Props

open Zinx Zinx.Conf Zinx.Servers

/-- A connection was accepted at server `i`. -/
def takesIn (i : Nat) : Servers.Label → Bool
  | .op j (.connect _ (some _)) => j == i
  | _ => false

/-- A connection ended at server `i`. -/
def letsGo (i : Nat) : Servers.Label → Bool
  | .op j (.disconnect _ _) => j == i
  | _ => false

/-- Server and calls. -/
structure OwnInv (i : Nat) (ls : List Servers.Label) (x : Server) : Prop where
  apis : ∀ id, id ∈ x.apis ↔ .op i (.addRouter id true) ∈ ls
  routes : ∀ id, id ∈ x.routes ↔ .op i (.addSlices id true) ∈ ls
  count : x.conns.length + ls.countP (letsGo i) = ls.countP (takesIn i)
  live : ∀ c w, (c, w) ∈ x.conns → .op i (.connect c (some w)) ∈ ls
  extra : ∀ f, x.extra = some f → ∀ w ∈ f, w < x.queues.length

theorem own_local {g : Config} {i : Nat} {ls : List Servers.Label} {x y : Server} {o : Op} (h : OwnInv i ls x) (hl : Local g x o y) : OwnInv i (ls ++ [.op i o]) y := by
  obtain ⟨h1, h2, h3, h4, h5⟩ := h
  -- calls that change nothing of this
  have same : y.apis = x.apis → y.routes = x.routes → y.conns = x.conns → y.extra = x.extra → y.queues.length = x.queues.length → (∀ id, o ≠ .addRouter id true ∧ o ≠ .addSlices id true) →
      takesIn i (.op i o) = false → letsGo i (.op i o) = false → OwnInv i (ls ++ [.op i o]) y := by
    intro e1 e2 e3 e4 e5 e6 e7 e8
    refine ⟨fun id => ?_, fun id => ?_, ?_, fun c w hm => ?_, ?_⟩
    · rw [e1, h1]; simp [(e6 id).1.symm]
    · rw [e2, h2]; simp [(e6 id).2.symm]
    · rw [e3]; simp [List.countP_append, e7, e8, h3]
    · rw [e3] at hm; exact List.mem_append_left _ (h4 c w hm)
    · rw [e4, e5]; exact h5
  have joins : ∀ c w, o = .connect c (some w) → y.apis = x.apis → y.routes = x.routes → y.conns = (c, w) :: x.conns → y.extra = x.extra → y.queues.length = x.queues.length → OwnInv i (ls ++ [.op i o]) y := by
    intro c w e0 e1 e2 e3 e4 e5
    refine ⟨fun id => ?_, fun id => ?_, ?_, fun c' w' hm => ?_, ?_⟩
    · rw [e1, h1]; simp [e0]
    · rw [e2, h2]; simp [e0]
    · rw [e3]; simp [List.countP_append, e0, takesIn, letsGo]; omega
    · rw [e3] at hm
      rcases List.mem_cons.1 hm with hm | hm
      · cases hm; rw [e0]; simp
      · exact List.mem_append_left _ (h4 _ _ hm)
    · rw [e4, e5]; exact h5
  have leaves : ∀ c w ok, o = .disconnect c ok → (c, w) ∈ x.conns → y.apis = x.apis → y.routes = x.routes → y.conns = x.conns.erase (c, w) → (∀ f, y.extra = some f → ∀ v ∈ f, v < x.queues.length) →
      y.queues.length = x.queues.length → OwnInv i (ls ++ [.op i o]) y := by
    intro c w ok e0 hm e1 e2 e3 e4 e5
    have hlen := List.length_erase_of_mem hm
    have hpos := List.length_pos_of_mem hm
    refine ⟨fun id => ?_, fun id => ?_, ?_, fun c' w' hm => ?_, ?_⟩
    · rw [e1, h1]; simp [e0]
    · rw [e2, h2]; simp [e0]
    · rw [e3]; simp [List.countP_append, e0, takesIn, letsGo]; omega
    · rw [e3] at hm
      exact List.mem_append_left _ (h4 _ _ (List.mem_of_mem_erase hm))
    · rw [e5]; exact e4
  cases hl with
  | addRouter id a b => exact ⟨fun id' => by simp [h1]; rw [or_comm], fun id' => by simp [h2], by simp [List.countP_append, takesIn, letsGo, h3], fun c w hm => List.mem_append_left _ (h4 c w hm), h5⟩
  | addSlices id a b => exact ⟨fun id' => by simp [h1], fun id' => by simp [h2]; rw [or_comm], by simp [List.countP_append, takesIn, letsGo, h3], fun c w hm => List.mem_append_left _ (h4 c w hm), h5⟩
  | addRouterPanic id a => exact same rfl rfl rfl rfl rfl (by simp) rfl rfl
  | addSlicesPanic id a => exact same rfl rfl rfl rfl rfl (by simp) rfl rfl
  | start a => exact same rfl rfl rfl rfl (by simp; omega) (by simp) rfl rfl
  | startPanic a => exact same rfl rfl rfl rfl (by simp) (by simp) rfl rfl
  | refuse c a => exact same rfl rfl rfl rfl rfl (by simp) rfl rfl
  | connectFree c w f => exact joins c w rfl rfl rfl rfl rfl rfl
  | connectExtra c w f => exact joins c w rfl rfl rfl rfl rfl (by simp)
  | connectHash c => exact joins c _ rfl rfl rfl rfl rfl rfl
  | messageNoPool => exact same rfl rfl rfl rfl rfl (by simp) rfl rfl
  | message => exact same rfl rfl rfl rfl rfl (by simp) rfl rfl
  | messageBlocked => exact same rfl rfl rfl rfl rfl (by simp) rfl rfl
  | messagePanic => exact same rfl rfl rfl rfl rfl (by simp) rfl rfl
  | leaveHash c w a => exact leaves c w _ rfl a rfl rfl rfl h5 rfl
  | leaveFree c w f a => exact leaves c w _ rfl a rfl rfl rfl h5 rfl
  | leaveFreeNil c w a => exact leaves c w _ rfl a rfl rfl rfl h5 rfl
  | leaveExtra c w f a b d k l =>
    refine leaves c w _ rfl a rfl rfl rfl (fun f' hf v hv => ?_) (by simp)
    cases hf
    rcases List.mem_insert_iff.1 hv with rfl | hv
    · exact (List.getElem?_eq_some_iff.1 k).1
    · exact h5 f l v hv
  | leaveExtraNil c w a => exact leaves c w _ rfl a rfl rfl rfl h5 (by simp)
  | leaveExtraPanic c w a => exact leaves c w _ rfl a rfl rfl rfl h5 rfl
  | alive => exact same rfl rfl rfl rfl rfl (by simp) rfl rfl
  | unpack => exact same rfl rfl rfl rfl rfl (by simp) rfl rfl

theorem own_other {i : Nat} {ls : List Servers.Label} {x : Server} {l : Servers.Label} (h : OwnInv i ls x) (hl : ∀ o, l ≠ .op i o) : OwnInv i (ls ++ [l]) x := by
  obtain ⟨h1, h2, h3, h4, h5⟩ := h
  have e1 : takesIn i l = false := by
    cases l with
    | create => rfl
    | op j o =>
      have : ¬ j = i := by rintro rfl; exact hl o rfl
      unfold takesIn; split <;> simp_all
  have e2 : letsGo i l = false := by
    cases l with
    | create => rfl
    | op j o =>
      have : ¬ j = i := by rintro rfl; exact hl o rfl
      unfold letsGo; split <;> simp_all
  refine ⟨fun id => ?_, fun id => ?_, ?_, fun c w hm => List.mem_append_left _ (h4 c w hm), h5⟩
  · rw [h1]; simp [(hl _).symm]
  · rw [h2]; simp [(hl _).symm]
  · simp [List.countP_append, e1, e2, h3]

theorem own_inv {g : Config} {ls : List Servers.Label} {s : Servers.State} (h : Steps Servers.Step (Servers.init g) ls s) (i : Nat) :
    (s.srv i = none → ∀ o, .op i o ∉ ls) ∧ ∀ x, s.srv i = some x → OwnInv i ls x := by
  refine h.invariant_trace (P := fun ls s => (s.srv i = none → ∀ o, .op i o ∉ ls) ∧ ∀ x, s.srv i = some x → OwnInv i ls x) ?_ ⟨fun _ _ => by simp, fun x hx => absurd hx (by simp [Servers.init])⟩
  intro ls s l t ⟨h1, h2⟩ hs
  cases hs with
  | create j m hn hok =>
    by_cases e : i = j
    · subst e
      refine ⟨fun h => by simp at h, fun x hx => ?_⟩
      simp at hx
      subst hx
      have hno := h1 hn
      refine own_other ?_ (by simp)
      refine ⟨fun id => ?_, fun id => ?_, ?_, fun c w hm => absurd hm (by simp [newServer]), fun f hf w hw => ?_⟩
      · simp [newServer, hno]
      · simp [newServer, hno]
      · have c1 : ls.countP (letsGo i) = 0 := List.countP_eq_zero.2 fun l hl hc => by
          cases l with
          | create => cases hc
          | op j o => unfold letsGo at hc; split at hc <;> simp_all
        have c2 : ls.countP (takesIn i) = 0 := List.countP_eq_zero.2 fun l hl hc => by
          cases l with
          | create => cases hc
          | op j o => unfold takesIn at hc; split at hc <;> simp_all
        rw [c1, c2]; simp [newServer]
      · simp only [newServer] at hf
        split at hf
        · cases hf
          rename_i hd
          simp [List.mem_range'_1] at hw
          simp [newServer, queueLen, hd]
          omega
        · cases hf
    · refine ⟨fun h o ho => ?_, fun x hx => own_other (h2 x (by simpa [e] using hx)) (by simp)⟩
      exact h1 (by simpa [e] using h) o (by simpa using ho)
  | op j o x y hx hl =>
    by_cases e : i = j
    · subst e
      refine ⟨fun h => by simp at h, fun x' hx' => ?_⟩
      simp at hx'
      subst hx'
      exact own_local (h2 x hx) hl
    · refine ⟨fun h o' ho => ?_, fun x' hx' => own_other (h2 x' (by simpa [e] using hx')) (by simp [Ne.symm e])⟩
      exact h1 (by simpa [e] using h) o' (by simpa [e] using ho)

/-- The last call of an execution. -/
theorem last_op {g : Config} {ls : List Servers.Label} {i : Nat} {o : Op} {t : Servers.State} (h : Steps Servers.Step (Servers.init g) (ls ++ [.op i o]) t) :
    ∃ s x y, Steps Servers.Step (Servers.init g) ls s ∧ s.glob = t.glob ∧ s.srv i = some x ∧ t.srv i = some y ∧ Local t.glob x o y ∧ OwnInv i ls x := by
  obtain ⟨s, h1, h2⟩ := Steps.unsnoc h
  cases h2 with
  | op _ _ x y hx hl => exact ⟨s, x, y, h1, rfl, hx, by simp, hl, (own_inv h1 i).2 x hx⟩

/-- **C93**, routes: `AddRouter` and `AddRouterSlices` succeed once for each ID, the first on a server that was created without slices, the second on one with; and a message is handled by what was added, where the kind is
taken from the global configuration. -/
theorem C93_finds (g : Config) (ls : List Servers.Label) (i : Nat) (o : Op) (t : Servers.State) (h : Steps Servers.Step (Servers.init g) (ls ++ [.op i o]) t) (x : Server) (hx : t.srv i = some x) :
    (∀ id ok, o = .addRouter id ok → (ok = true ↔ x.conf.routerSlicesMode = false ∧ .op i (.addRouter id true) ∉ ls)) ∧
    (∀ id ok, o = .addSlices id ok → (ok = true ↔ x.conf.routerSlicesMode = true ∧ .op i (.addSlices id true) ∉ ls)) ∧
    ∀ c id r, o = .message c id r → (∃ w, .op i (.connect c (some w)) ∈ ls) ∧ (r = .router → t.glob.routerSlicesMode = false ∧ .op i (.addRouter id true) ∈ ls) ∧
      (r = .slices → t.glob.routerSlicesMode = true ∧ .op i (.addSlices id true) ∈ ls) ∧
      (r = .notFound → if t.glob.routerSlicesMode then .op i (.addSlices id true) ∉ ls else .op i (.addRouter id true) ∉ ls) := by
  obtain ⟨s, x0, y, h1, _, h2, h3, hl, hi⟩ := last_op h
  rw [hx] at h3; cases h3
  refine ⟨?_, ?_, ?_⟩
  · rintro id ok rfl
    rw [← hi.apis]
    cases hl with
    | addRouter _ a b => exact ⟨fun _ => ⟨a, b⟩, fun _ => rfl⟩
    | addRouterPanic _ a => exact ⟨nofun, fun ⟨b, d⟩ => (a.elim (fun a => by rw [a] at b; cases b) fun a => absurd a d)⟩
  · rintro id ok rfl
    rw [← hi.routes]
    cases hl with
    | addSlices _ a b => exact ⟨fun _ => ⟨a, b⟩, fun _ => rfl⟩
    | addSlicesPanic _ a => exact ⟨nofun, fun ⟨b, d⟩ => (a.elim (fun a => by rw [a] at b; cases b) fun a => absurd a d)⟩
  · rintro c id r rfl
    rw [← hi.apis, ← hi.routes]
    have key : ∀ w, (c, w) ∈ x0.conns → r = handled t.glob.routerSlicesMode x0 id → (∃ w, .op i (.connect c (some w)) ∈ ls) ∧ (r = .router → t.glob.routerSlicesMode = false ∧ id ∈ x0.apis) ∧
      (r = .slices → t.glob.routerSlicesMode = true ∧ id ∈ x0.routes) ∧ (r = .notFound → if t.glob.routerSlicesMode then id ∉ x0.routes else id ∉ x0.apis) := by
      intro w hm hr
      refine ⟨⟨w, hi.live c w hm⟩, ?_⟩
      subst hr
      unfold handled
      cases t.glob.routerSlicesMode with
      | true => by_cases hh : id ∈ x0.routes <;> simp [hh]
      | false => by_cases hh : id ∈ x0.apis <;> simp [hh]
    cases hl with
    | messageNoPool _ w _ a b => exact key w a rfl
    | message _ w _ a b d => exact key w a rfl
    | messageBlocked _ w _ a => exact ⟨⟨w, hi.live c w a⟩, nofun, nofun, nofun⟩
    | messagePanic _ w _ a => exact ⟨⟨w, hi.live c w a⟩, nofun, nofun, nofun⟩

/-- **C93**, the limit: a connection is accepted iff fewer than `MaxConn` (of the global configuration at that time) of this server are there, those of other servers not counted. -/
theorem C93_limit (g : Config) (ls : List Servers.Label) (i c : Nat) (r : Option Nat) (t : Servers.State) (h : Steps Servers.Step (Servers.init g) (ls ++ [.op i (.connect c r)]) t) :
    ls.countP (letsGo i) ≤ ls.countP (takesIn i) ∧ (r ≠ none ↔ ((ls.countP (takesIn i) : Int) - ls.countP (letsGo i) < t.glob.maxConn)) := by
  obtain ⟨s, x, y, h1, _, h2, h3, hl, hi⟩ := last_op h
  have hc := hi.count
  refine ⟨by omega, ?_⟩
  cases hl with
  | refuse _ a => simp; omega
  | connectFree _ w f a => simp; omega
  | connectExtra _ w f a => simp; omega
  | connectHash _ a => simp; omega

/-- **C93**, settings read when needed: listeners, the length of packets, and when a connection counts as dead. -/
theorem C93_reads (g : Config) (ls : List Servers.Label) (i : Nat) (o : Op) (t : Servers.State) (h : Steps Servers.Step (Servers.init g) (ls ++ [.op i o]) t) :
    (∀ L, o = .start (some L) → (.tcp ∈ L ↔ t.glob.mode ≠ "websocket" ∧ t.glob.mode ≠ "kcp") ∧ (.ws ∈ L ↔ t.glob.mode ≠ "tcp" ∧ t.glob.mode ≠ "kcp") ∧ (.kcp ∈ L ↔ t.glob.mode = "kcp")) ∧
    (∀ n ok, o = .unpack n ok → (ok = true ↔ t.glob.maxPacketSize = 0 ∨ n ≤ t.glob.maxPacketSize.toNat)) ∧
    ∀ d r, o = .alive d r → -9223372036 ≤ t.glob.heartbeatMax → t.glob.heartbeatMax ≤ 9223372036 → (r = true ↔ d < t.glob.heartbeatMax * 1000000000) := by
  obtain ⟨s, x, y, h1, _, h2, h3, hl, hi⟩ := last_op h
  refine ⟨?_, ?_, ?_⟩
  · rintro L rfl
    cases hl with
    | start a =>
      unfold listeners
      by_cases e1 : t.glob.mode = "tcp"
      · simp [e1]
      · by_cases e2 : t.glob.mode = "websocket"
        · simp [e2]
        · by_cases e3 : t.glob.mode = "kcp"
          · simp [e3]
          · simp [e1, e2, e3]
  · rintro n ok rfl
    cases hl with
    | unpack _ a =>
      have : t.glob.maxPacketSize = 0 ↔ t.glob.maxPacketSize.toNat = 0 := by
        rw [← UInt32.toNat_inj]; rfl
      rw [this]
      simp only [decide_eq_true_eq]
      omega
  · rintro d r rfl b1 b2
    cases hl with
    | alive =>
      rw [decide_eq_true_eq]
      show d < wrap64 _ ↔ _
      have : wrap64 (t.glob.heartbeatMax * 1000000000) = t.glob.heartbeatMax * 1000000000 := by
        unfold wrap64
        exact Int.bmod_eq_of_le (by omega) (by omega)
      rw [this]

/-- **C93**, every call has an answer: whatever happened before, each call on a server, each connection, message and end of a connection is answered in one of the ways above. -/
theorem C93_total (g : Config) (ls : List Servers.Label) (t : Servers.State) (h : Steps Servers.Step (Servers.init g) ls t) (i : Nat) (x : Server) (hx : t.srv i = some x) :
    (∀ id, ∃ ok t', Servers.Step t (.op i (.addRouter id ok)) t') ∧ (∀ id, ∃ ok t', Servers.Step t (.op i (.addSlices id ok)) t') ∧ (∃ L t', Servers.Step t (.op i (.start L)) t') ∧
    (∀ c, ∃ r t', Servers.Step t (.op i (.connect c r)) t') ∧ (∀ c w, (c, w) ∈ x.conns → ∀ id, ∃ r t', Servers.Step t (.op i (.message c id r)) t') ∧
    (∀ c w, (c, w) ∈ x.conns → ∃ ok t', Servers.Step t (.op i (.disconnect c ok)) t') ∧ (∀ d, ∃ r t', Servers.Step t (.op i (.alive d r)) t') ∧
    ∀ n, n < 2 ^ 32 → ∃ ok t', Servers.Step t (.op i (.unpack n ok)) t' := by
  have hi := (own_inv h i).2 x hx
  have go : ∀ {o y}, Local t.glob x o y → ∃ t', Servers.Step t (.op i o) t' := fun hl => ⟨_, .op t i _ x _ hx hl⟩
  refine ⟨fun id => ?_, fun id => ?_, ?_, fun c => ?_, fun c w hm id => ?_, fun c w hm => ?_, fun d => ⟨_, go (.alive x d)⟩, fun n hn => ⟨_, go (.unpack x n hn)⟩⟩
  · by_cases e : x.conf.routerSlicesMode = true ∨ id ∈ x.apis
    · exact ⟨_, go (.addRouterPanic x id e)⟩
    · rw [not_or] at e; exact ⟨_, go (.addRouter x id (by simpa using e.1) e.2)⟩
  · by_cases e : x.conf.routerSlicesMode = false ∨ id ∈ x.routes
    · exact ⟨_, go (.addSlicesPanic x id e)⟩
    · rw [not_or] at e; exact ⟨_, go (.addSlices x id (by simpa using e.1) e.2)⟩
  · by_cases e : x.pool ≤ x.queues.length
    · exact ⟨_, go (.start x e)⟩
    · exact ⟨_, go (.startPanic x (by omega))⟩
  · by_cases e : t.glob.maxConn ≤ x.conns.length
    · exact ⟨_, go (.refuse x c e)⟩
    have hlt : (x.conns.length : Int) < t.glob.maxConn := by omega
    by_cases hf : (t.glob.workerMode = "Bind" ∨ t.glob.workerMode = "DynamicBind") ∧ ∃ f w, x.free = some f ∧ w ∈ f
    · obtain ⟨hmode, f, w, e1, e2⟩ := hf
      exact ⟨_, go (.connectFree x c w f hlt hmode e1 e2)⟩
    have hf' : t.glob.workerMode = "Bind" ∨ t.glob.workerMode = "DynamicBind" → ∀ w f, x.free = some f → w ∉ f := fun hm w f e1 e2 => hf ⟨hm, f, w, e1, e2⟩
    by_cases hd : t.glob.workerMode = "DynamicBind" ∧ ∃ f w, x.extra = some f ∧ w ∈ f
    · obtain ⟨hmode, f, w, e1, e2⟩ := hd
      exact ⟨_, go (.connectExtra x c w f hlt hmode (hf' (.inr hmode)) e1 e2 (hi.extra f e1 w e2))⟩
    · exact ⟨_, go (.connectHash x c hlt hf' fun hm w f e1 e2 => hd ⟨hm, f, w, e1, e2⟩)⟩
  · by_cases hp : x.pool = 0
    · exact ⟨_, go (.messageNoPool x c w id hm hp)⟩
    have hp : 0 < x.pool := by omega
    cases hq : x.queues[w]? with
    | none => exact ⟨_, go (.messagePanic x c w id hm hp (.inl hq))⟩
    | some q =>
      cases q with
      | unset => exact ⟨_, go (.messageBlocked x c w id hm hp hq)⟩
      | opened => exact ⟨_, go (.message x c w id hm hp hq)⟩
      | closed => exact ⟨_, go (.messagePanic x c w id hm hp (.inr hq))⟩
  · by_cases hf : t.glob.workerMode = "Bind" ∨ t.glob.workerMode = "DynamicBind" ∧ w < x.pool
    · cases e : x.free with
      | none => exact ⟨_, go (.leaveFreeNil x c w hm hf e)⟩
      | some f => exact ⟨_, go (.leaveFree x c w f hm hf e)⟩
    rw [not_or] at hf
    by_cases hd : t.glob.workerMode = "DynamicBind"
    · have hw : x.pool ≤ w := by
        apply Classical.byContradiction
        intro h'
        exact hf.2 ⟨hd, by omega⟩
      by_cases hq : x.queues[w]? = some .opened
      · cases e : x.extra with
        | none => exact ⟨_, go (.leaveExtraNil x c w hm hd hw hq e)⟩
        | some f => exact ⟨_, go (.leaveExtra x c w f hm hd hw hq e)⟩
      · exact ⟨_, go (.leaveExtraPanic x c w hm hd hw hq)⟩
    · exact ⟨_, go (.leaveHash x c w hm hf.1 hd)⟩

/-! ### Workers -/

/-- `Start` of server `i`. -/
def begun (i : Nat) : Servers.Label → Bool
  | .op j (.start _) => j == i
  | _ => false

/-- A connection with number `c` comes to server `i`. -/
def comes (i c : Nat) : Servers.Label → Bool
  | .op j (.connect c' _) => j == i && c' == c
  | _ => false

structure LastInv (G : Config) (i : Nat) (ls : List Servers.Label) (x : Server) : Prop where
  pool : x.pool = G.workerPoolSize.toNat
  queues : x.queues = List.replicate x.pool (if ls.any (begun i) then .opened else .unset)
  within : ∀ c w, (c, w) ∈ x.conns → 0 < x.pool → w < x.pool
  free : G.workerMode = "Bind" → ∃ F, x.free = some F ∧ (x.conns.map (·.2) ++ F).Perm (List.range x.pool)
  hash : G.workerMode ≠ "Bind" → ∀ c w, (c, w) ∈ x.conns → w = fallback x.pool c
  live : ∀ c w, (c, w) ∈ x.conns ↔ .op i (.connect c (some w)) ∈ ls ∧ ∀ ok, .op i (.disconnect c ok) ∉ ls
  ended : ∀ c ok, .op i (.disconnect c ok) ∈ ls → ∃ w, .op i (.connect c (some w)) ∈ ls
  nodup : (x.conns.map (·.1)).Nodup
  fits : G.workerMode = "Bind" → (x.pool : Int) = G.maxConn

theorem fallback_lt {pool c : Nat} (h : 0 < pool) : fallback pool c < pool := by
  unfold fallback
  rw [if_neg (by omega)]
  exact Nat.mod_lt _ h

theorem last_local {G : Config} {i : Nat} {ls : List Servers.Label} {x y : Server} {o : Op} (hd : G.workerMode ≠ "DynamicBind") (h : LastInv G i ls x) (hl : Local G x o y) (hone : ∀ c, (ls ++ [Servers.Label.op i o]).countP (comes i c) ≤ 1) :
    LastInv G i (ls ++ [.op i o]) y := by
  obtain ⟨h1, h2, h3, h4, h5, h6, h7, h8, h9⟩ := h
  have same : y = x → begun i (.op i o) = false → (∀ c w, o ≠ .connect c (some w)) → (∀ c ok, o ≠ .disconnect c ok) → LastInv G i (ls ++ [.op i o]) y := by
    rintro rfl e1 e2 e3
    refine ⟨h1, ?_, h3, h4, h5, fun c w => ?_, fun c ok hm => ?_, h8, h9⟩
    · rw [h2]; simp [List.any_append, e1]
    · rw [h6]; simp [(e2 c w).symm, fun ok => (e3 c ok).symm]
    · obtain ⟨w, hw⟩ := h7 c ok (by simpa [(e3 c ok).symm] using hm)
      exact ⟨w, List.mem_append_left _ hw⟩
  have same' : y.pool = x.pool → y.queues = x.queues → y.conns = x.conns → y.free = x.free → begun i (.op i o) = false → (∀ c w, o ≠ .connect c (some w)) → (∀ c ok, o ≠ .disconnect c ok) →
      LastInv G i (ls ++ [.op i o]) y := by
    rintro a1 a2 a3 a4 e1 e2 e3
    refine ⟨a1.trans h1, ?_, ?_, ?_, ?_, fun c w => ?_, fun c ok hm => ?_, ?_, ?_⟩
    · rw [a2, a1, h2]; simp [List.any_append, e1]
    · rw [a3, a1]; exact h3
    · rw [a3, a1, a4]; exact h4
    · rw [a3, a1]; exact h5
    · rw [a3, h6]; simp [(e2 c w).symm, fun ok => (e3 c ok).symm]
    · obtain ⟨w, hw⟩ := h7 c ok (by simpa [(e3 c ok).symm] using hm)
      exact ⟨w, List.mem_append_left _ hw⟩
    · rw [a3]; exact h8
    · rw [a1]; exact h9
  have fresh : ∀ c r, o = .connect c r → ∀ r', .op i (.connect c r') ∉ ls := by
    rintro c r rfl r' hm
    have := hone c
    rw [List.countP_append] at this
    have : 0 < ls.countP (comes i c) := List.countP_pos_iff.2 ⟨_, hm, by simp [comes]⟩
    have : [Servers.Label.op i (.connect c r)].countP (comes i c) = 1 := by simp [comes]
    omega
  have joins : ∀ c w, o = .connect c (some w) → (0 < x.pool → w < x.pool) → (G.workerMode ≠ "Bind" → w = fallback x.pool c) → y.pool = x.pool → y.queues = x.queues → y.conns = (c, w) :: x.conns →
      (G.workerMode = "Bind" → ∃ F, y.free = some F ∧ ((w :: x.conns.map (·.2)) ++ F).Perm (List.range x.pool)) → LastInv G i (ls ++ [.op i o]) y := by
    intro c w e0 b1 b2 a1 a2 a3 a4
    have hfr := fresh c _ e0
    have hnd : ∀ ok, .op i (.disconnect c ok) ∉ ls := fun ok hm => let ⟨w', hw⟩ := h7 c ok hm; hfr _ hw
    have hnc : ∀ w', (c, w') ∉ x.conns := fun w' hm => hfr _ ((h6 c w').1 hm).1
    refine ⟨a1.trans h1, ?_, ?_, ?_, ?_, fun c' w' => ?_, fun c' ok hm => ?_, ?_, ?_⟩
    · rw [a2, a1, h2, e0]; simp [List.any_append, begun]
    · rw [a3, a1]
      intro c' w' hm hp
      rcases List.mem_cons.1 hm with hm | hm
      · cases hm; exact b1 hp
      · exact h3 c' w' hm hp
    · rw [a3, a1]; exact a4
    · rw [a3, a1]
      intro hb c' w' hm
      rcases List.mem_cons.1 hm with hm | hm
      · cases hm; exact b2 hb
      · exact h5 hb c' w' hm
    · rw [a3, List.mem_cons, h6, e0]
      simp only [List.mem_append, List.mem_singleton, Servers.Label.op.injEq, Op.connect.injEq, Option.some.injEq, true_and, reduceCtorEq, and_false, or_false, Prod.mk.injEq]
      constructor
      · rintro (⟨rfl, rfl⟩ | ⟨g1, g2⟩)
        · exact ⟨.inr ⟨rfl, rfl⟩, hnd⟩
        · exact ⟨.inl g1, g2⟩
      · rintro ⟨g1 | g1, g2⟩
        · exact .inr ⟨g1, g2⟩
        · exact .inl g1
    · obtain ⟨w', hw⟩ := h7 c' ok (by rw [e0] at hm; simpa using hm)
      exact ⟨w', List.mem_append_left _ hw⟩
    · rw [a3, List.map_cons, List.nodup_cons]
      refine ⟨fun hm => ?_, h8⟩
      obtain ⟨p, hp, e⟩ := List.mem_map.1 hm
      exact hnc p.2 (by rw [show c = p.1 from e.symm]; exact hp)
    · rw [a1]; exact h9
  have hnd : x.conns.Nodup := List.Pairwise.of_map _ (fun a b hab e => hab (by rw [e])) h8
  have leaves : ∀ c w ok, o = .disconnect c ok → (c, w) ∈ x.conns → y.pool = x.pool → y.queues = x.queues → y.conns = x.conns.erase (c, w) →
      (G.workerMode = "Bind" → ∃ F, y.free = some F ∧ ((x.conns.erase (c, w)).map (·.2) ++ F).Perm (List.range x.pool)) → LastInv G i (ls ++ [.op i o]) y := by
    intro c w ok e0 hm a1 a2 a3 a4
    have huniq : ∀ w', (c, w') ∈ x.conns → w' = w := by
      intro w' hm'
      apply Classical.byContradiction
      intro hne
      have hw : (c, w') ∈ x.conns.erase (c, w) := (List.mem_erase_of_ne (by simpa using hne)).2 hm'
      have hp := (List.perm_cons_erase hm).map (·.1)
      have := hp.nodup_iff.1 h8
      rw [List.map_cons, List.nodup_cons] at this
      exact this.1 (List.mem_map.2 ⟨_, hw, rfl⟩)
    refine ⟨a1.trans h1, ?_, ?_, ?_, ?_, fun c' w' => ?_, fun c' ok' hm' => ?_, ?_, ?_⟩
    · rw [a2, a1, h2, e0]; simp [List.any_append, begun]
    · rw [a3, a1]; exact fun c' w' hm' => h3 c' w' (List.mem_of_mem_erase hm')
    · rw [a3, a1]; exact a4
    · rw [a3, a1]; exact fun hb c' w' hm' => h5 hb c' w' (List.mem_of_mem_erase hm')
    · rw [a3, List.Nodup.mem_erase_iff hnd, h6, e0]
      simp only [List.mem_append, List.mem_singleton, Servers.Label.op.injEq, Op.disconnect.injEq, true_and, reduceCtorEq, and_false, or_false]
      constructor
      · rintro ⟨hne, g1, g2⟩
        refine ⟨g1, fun ok' => ?_⟩
        rintro (g | ⟨rfl, rfl⟩)
        · exact g2 ok' g
        · have := huniq w' ((h6 c' w').2 ⟨g1, g2⟩)
          subst this
          exact hne rfl
      · rintro ⟨g1, g2⟩
        refine ⟨fun e => ?_, g1, fun ok' g => g2 ok' (.inl g)⟩
        cases e
        exact g2 ok (.inr ⟨rfl, rfl⟩)
    · rw [e0] at hm'
      simp only [List.mem_append, List.mem_singleton, Servers.Label.op.injEq, Op.disconnect.injEq, true_and] at hm'
      rcases hm' with g | ⟨rfl, rfl⟩
      · obtain ⟨w', hw⟩ := h7 c' ok' g
        exact ⟨w', List.mem_append_left _ hw⟩
      · exact ⟨w, List.mem_append_left _ ((h6 c' w).1 hm).1⟩
    · rw [a3]; exact h8.sublist (List.erase_sublist.map _)
    · rw [a1]; exact h9
  cases hl with
  | addRouter id a b => exact same' rfl rfl rfl rfl rfl nofun nofun
  | addSlices id a b => exact same' rfl rfl rfl rfl rfl nofun nofun
  | addRouterPanic id a => exact same rfl rfl nofun nofun
  | addSlicesPanic id a => exact same rfl rfl nofun nofun
  | start a =>
    refine ⟨h1, ?_, h3, h4, h5, fun c w => ?_, fun c ok hm => ?_, h8, h9⟩
    · simp only [List.any_append, begun, List.any_cons, BEq.rfl, Bool.true_or, Bool.or_true, if_true]
      rw [h2]; simp
    · rw [h6]; simp
    · obtain ⟨w, hw⟩ := h7 c ok (by simpa using hm)
      exact ⟨w, List.mem_append_left _ hw⟩
  | startPanic a => rw [h2] at a; simp at a
  | refuse c a => exact same rfl rfl (by simp) nofun
  | connectFree c w f a b d k =>
    have hb := b.resolve_right hd
    obtain ⟨F, e1, e2⟩ := h4 hb
    rw [d] at e1; cases e1
    have hp : ((w :: x.conns.map (·.2)) ++ f.erase w).Perm (List.range x.pool) := by
      refine .trans ?_ e2
      rw [List.cons_append]
      refine .trans List.perm_middle.symm (List.Perm.append_left _ (List.perm_cons_erase k).symm)
    exact joins c w rfl (fun _ => by simpa using hp.subset (.head _)) (fun h => absurd hb h) rfl rfl rfl fun _ => ⟨_, rfl, hp⟩
  | connectExtra c w f a b => exact absurd b hd
  | connectHash c a b d =>
    refine joins c _ rfl fallback_lt (fun _ => rfl) rfl rfl rfl fun hb => ?_
    obtain ⟨F, e1, e2⟩ := h4 hb
    have : F = [] := List.eq_nil_iff_forall_not_mem.2 fun w => b (.inl hb) w F e1
    subst this
    have := e2.length_eq
    have := h9 hb
    simp at *
    omega
  | messageNoPool => exact same rfl rfl nofun nofun
  | message => exact same rfl rfl nofun nofun
  | messageBlocked => exact same rfl rfl nofun nofun
  | messagePanic => exact same rfl rfl nofun nofun
  | leaveHash c w a b => exact leaves c w _ rfl a rfl rfl rfl fun h => absurd h b
  | leaveFree c w f a b d =>
    refine leaves c w _ rfl a rfl rfl rfl fun hb => ⟨_, rfl, ?_⟩
    obtain ⟨F, e1, e2⟩ := h4 hb
    rw [d] at e1; cases e1
    have hw : w ∉ f := by
      have := (e2.nodup_iff.2 List.nodup_range)
      rw [List.nodup_append] at this
      exact fun hf => this.2.2 w (List.mem_map.2 ⟨_, a, rfl⟩) w hf rfl
    rw [List.insert_of_not_mem hw]
    refine .trans ?_ e2
    refine .trans List.perm_middle ?_
    rw [← List.cons_append]
    exact List.Perm.append_right f ((List.perm_cons_erase a).map Prod.snd).symm
  | leaveFreeNil c w a b d =>
    refine leaves c w _ rfl a rfl rfl rfl fun hb => ?_
    obtain ⟨F, e1, e2⟩ := h4 hb
    rw [d] at e1; cases e1
  | leaveExtra c w f a b => exact absurd b hd
  | leaveExtraNil c w a b => exact absurd b hd
  | leaveExtraPanic c w a b => exact absurd b hd
  | alive => exact same rfl rfl nofun nofun
  | unpack => exact same rfl rfl nofun nofun

theorem last_other {G : Config} {i j : Nat} {ls : List Servers.Label} {x : Server} {o : Op} (h : LastInv G i ls x) (hj : i ≠ j) : LastInv G i (ls ++ [.op j o]) x := by
  obtain ⟨h1, h2, h3, h4, h5, h6, h7, h8, h9⟩ := h
  have e1 : begun i (.op j o) = false := by
    have := hj.symm
    unfold begun; split <;> simp_all
  refine ⟨h1, ?_, h3, h4, h5, fun c w => ?_, fun c ok hm => ?_, h8, h9⟩
  · rw [h2]; simp [List.any_append, e1]
  · rw [h6]; simp [hj]
  · obtain ⟨w, hw⟩ := h7 c ok (by simpa [hj] using hm)
    exact ⟨w, List.mem_append_left _ hw⟩

theorem toU32_toNat {n : Int} (h0 : 0 ≤ n) (h1 : n < 4294967296) : ((toU32 n).toNat : Int) = n := by
  unfold toU32
  rw [UInt32.toNat_ofNat']
  omega

theorem last_inv {G : Config} (hd : G.workerMode ≠ "DynamicBind") (hb : G.workerMode = "Bind" → 0 ≤ G.maxConn ∧ G.maxConn < 4294967296 ∧ G.workerPoolSize = toU32 G.maxConn) {i : Nat} {s t : Servers.State}
    {ls : List Servers.Label} (h : Steps Servers.Step s ls t) (hs : s.glob = G) (hx : s.srv i = some (newServer G)) :
    (∀ j m, .create j m ∉ ls) → (∀ c, ls.countP (comes i c) ≤ 1) → t.glob = G ∧ ∃ x, t.srv i = some x ∧ LastInv G i ls x := by
  refine h.invariant_trace (P := fun ls t => (∀ j m, .create j m ∉ ls) → (∀ c, ls.countP (comes i c) ≤ 1) → t.glob = G ∧ ∃ x, t.srv i = some x ∧ LastInv G i ls x) ?_ ?_
  · intro ls s l t ih hst hno hone
    obtain ⟨e1, x, e2, e3⟩ := ih (fun j m hm => hno j m (List.mem_append_left _ hm)) (fun c => by have := hone c; rw [List.countP_append] at this; omega)
    cases hst with
    | create j m => exact absurd (List.mem_append_right _ (.head _)) (hno j m)
    | op j o x' y hx' hl =>
      refine ⟨e1, ?_⟩
      by_cases e : i = j
      · subst e
        rw [e2] at hx'; cases hx'
        rw [e1] at hl
        exact ⟨y, by simp, last_local hd e3 hl hone⟩
      · exact ⟨x, by simpa [e] using e2, last_other e3 e⟩
  · intro _ _
    refine ⟨hs, _, hx, rfl, by simp [newServer, queueLen, hd], ?_, ?_, ?_, ?_, nofun, by simp [newServer], ?_⟩
    · exact fun c w hm => absurd hm (by simp [newServer])
    · intro hB; exact ⟨List.range G.workerPoolSize.toNat, by simp [newServer, hB], by simp [newServer]⟩
    · exact fun _ c w hm => absurd hm (by simp [newServer])
    · exact fun c w => by simp [newServer]
    · intro hB
      obtain ⟨b1, b2, b3⟩ := hb hB
      show ((G.workerPoolSize.toNat : Nat) : Int) = _
      rw [b3]; exact toU32_toNat b1 b2

/-- **C93**, workers of the server created last, in a process that is not set to `DynamicBind` mode; each connection has its own number. In `Bind` mode each of its connections has a worker of its own, the workers being those
below `MaxConn`; in the others the worker is given by the number of the connection. No connection of this server ends with a panic, its `Start` and its readers do not panic, and messages are kept waiting iff the pool has
not been started. For servers created before, see `C93_workers_refuted`. -/
theorem C93_last (g : Config) (l1 ls : List Servers.Label) (i : Nat) (m : Maker) (o : Op) (t : Servers.State)
    (h : Steps Servers.Step (Servers.init g) (l1 ++ .create i m :: (ls ++ [.op i o])) t) (hno : ∀ j m', .create j m' ∉ ls) (hone : ∀ c, (ls ++ [Servers.Label.op i o]).countP (comes i c) ≤ 1)
    (hd : t.glob.workerMode ≠ "DynamicBind") (hb : t.glob.workerMode = "Bind" → 0 ≤ t.glob.maxConn ∧ t.glob.maxConn < 4294967296) :
    let present := fun c w => Servers.Label.op i (.connect c (some w)) ∈ ls ∧ ∀ ok, .op i (.disconnect c ok) ∉ ls
    (∀ c w, o = .connect c (some w) → (t.glob.workerMode = "Bind" → (w : Int) < t.glob.maxConn ∧ ∀ c' w', present c' w' → w' ≠ w) ∧
      (t.glob.workerMode ≠ "Bind" → w = if t.glob.workerPoolSize.toNat = 0 then 0 else c % t.glob.workerPoolSize.toNat)) ∧
    (∀ c ok, o = .disconnect c ok → ok = true ∧ ∃ w, present c w) ∧
    (∀ c id r, o = .message c id r → (∃ w, present c w) ∧ r ≠ .panicked ∧ (r = .blocked ↔ 0 < t.glob.workerPoolSize.toNat ∧ ∀ L, .op i (.start L) ∉ ls)) ∧
    ∀ L, o = .start L → L ≠ none := by
  intro present
  obtain ⟨s, h1, h2⟩ := Steps.split h
  cases h2 with
  | cons h2 h2' =>
  obtain ⟨s', h3, h4⟩ := Steps.unsnoc h2'
  cases h2 with
  | create _ _ hn hok =>
  have hglob : ∀ {u : Servers.State} {k : List Servers.Label}, Steps Servers.Step { glob := made m s.glob, srv := fun j => if j = i then some (newServer (made m s.glob)) else s.srv j } k u →
      (∀ j m', .create j m' ∉ k) → u.glob = made m s.glob := by
    intro u k hu
    refine hu.invariant_trace (P := fun k u => (∀ j m', .create j m' ∉ k) → u.glob = made m s.glob) ?_ (fun _ => rfl)
    intro k u l v ih hst hk
    cases hst with
    | create j m => exact absurd (List.mem_append_right _ (.head _)) (hk j m)
    | op => exact ih fun j m' hm => hk j m' (List.mem_append_left _ hm)
  have e0 := hglob h3 hno
  cases h4 with
  | op _ _ x y hx hl =>
  have e0' : s'.glob = made m s.glob := e0
  have hd' : (made m s.glob).workerMode ≠ "DynamicBind" := by rw [← e0']; exact hd
  have hb' : (made m s.glob).workerMode = "Bind" → 0 ≤ (made m s.glob).maxConn ∧ (made m s.glob).maxConn < 4294967296 ∧ (made m s.glob).workerPoolSize = toU32 (made m s.glob).maxConn := by
    intro hB
    have := hb (by rw [e0]; exact hB)
    rw [e0] at this
    refine ⟨this.1, this.2, ?_⟩
    unfold made settle at hB ⊢
    by_cases hc : (m.apply s.glob).workerMode = "Bind"
    · simp [hc]
    · rw [if_neg hc] at hB; exact absurd hB hc
  obtain ⟨-, x', ex, hi⟩ := last_inv hd' hb' (i := i) h3 rfl (by simp) hno (fun c => by have := hone c; rw [List.countP_append] at this; omega)
  rw [hx] at ex; cases ex
  have hl' : Local (made m s.glob) x o y := by rw [← e0']; exact hl
  have hi' := last_local hd' hi hl' hone
  show _ ∧ _ ∧ _ ∧ _
  simp only [e0']
  have hstart : ls.any (begun i) = false ↔ ∀ L, .op i (.start L) ∉ ls := by
    rw [List.any_eq_false]
    constructor
    · intro hh L hm; exact hh _ hm (by simp [begun])
    · intro hh l hm hc
      unfold begun at hc
      split at hc
      · rename_i j L
        have : j = i := by simpa using hc
        subst this
        exact hh L hm
      · cases hc
  refine ⟨?_, ?_, ?_, ?_⟩
  · rintro c w rfl
    have hfr : ∀ r', .op i (.connect c r') ∉ ls := by
      intro r' hm
      have := hone c
      rw [List.countP_append] at this
      have : 0 < ls.countP (comes i c) := List.countP_pos_iff.2 ⟨_, hm, by simp [comes]⟩
      have : [Servers.Label.op i (.connect c (some w))].countP (comes i c) = 1 := by simp [comes]
      omega
    have hin : (c, w) ∈ y.conns := (hi'.live c w).2 ⟨by simp, fun ok hm => by
      obtain ⟨w', hw⟩ := hi.ended c ok (by simpa using hm)
      exact hfr _ hw⟩
    refine ⟨fun hB => ?_, fun hB => ?_⟩
    · obtain ⟨F, f1, f2⟩ := hi'.free hB
      have hw : w ∈ List.range y.pool := f2.subset (List.mem_append_left _ (List.mem_map.2 ⟨_, hin, rfl⟩))
      have := hi'.fits hB
      rw [List.mem_range] at hw
      refine ⟨by omega, fun c' w' hp => ?_⟩
      have hin' : (c', w') ∈ y.conns := (hi'.live c' w').2 ⟨List.mem_append_left _ hp.1, fun ok hm => hp.2 ok (by simpa using hm)⟩
      rintro rfl
      have hne : c' ≠ c := by rintro rfl; exact hfr _ hp.1
      have hnd := (List.nodup_append.1 (f2.nodup_iff.2 List.nodup_range)).1
      have := ((List.perm_cons_erase hin).map Prod.snd).nodup_iff.1 hnd
      rw [List.map_cons, List.nodup_cons] at this
      exact this.1 (List.mem_map.2 ⟨_, (List.mem_erase_of_ne (by simpa using hne)).2 hin', rfl⟩)
    · have := hi'.hash hB c w hin
      rw [hi'.pool] at this
      exact this
  · rintro c ok rfl
    obtain ⟨w, hw⟩ : ∃ w, (c, w) ∈ x.conns := by cases hl' <;> exact ⟨_, ‹_›⟩
    refine ⟨?_, w, (hi.live c w).1 hw⟩
    cases hl' with
    | leaveHash => rfl
    | leaveFree => rfl
    | leaveFreeNil _ w' a b d =>
      rcases b with b | b
      · obtain ⟨F, f1, -⟩ := hi.free b
        rw [d] at f1; cases f1
      · exact absurd b.1 hd'
    | leaveExtra => rfl
    | leaveExtraNil _ w' a b => exact absurd b hd'
    | leaveExtraPanic _ w' a b => exact absurd b hd'
  · rintro c id r rfl
    obtain ⟨w, hw⟩ : ∃ w, (c, w) ∈ x.conns := by cases hl' <;> exact ⟨_, ‹_›⟩
    refine ⟨⟨w, (hi.live c w).1 hw⟩, ?_⟩
    rw [← hi.pool, ← hstart]
    have hq : ∀ w', (c, w') ∈ x.conns → 0 < x.pool → x.queues[w']? = some (if ls.any (begun i) then .opened else .unset) := by
      intro w' hw' hp
      rw [hi.queues, List.getElem?_replicate, if_pos (hi.within c w' hw' hp)]
    have hh : ∀ b, handled b x id ≠ .panicked ∧ handled b x id ≠ .blocked := by
      intro b; unfold handled; split <;> split <;> simp
    cases hl' with
    | messageNoPool _ w' _ a b => exact ⟨(hh _).1, by simp [(hh _).2, b]⟩
    | message _ w' _ a b d =>
      rw [hq w' a b] at d
      refine ⟨(hh _).1, ?_⟩
      cases e : ls.any (begun i) with
      | true => simp [(hh _).2]
      | false => simp [e] at d
    | messageBlocked _ w' _ a b d =>
      rw [hq w' a b] at d
      refine ⟨nofun, ?_⟩
      cases e : ls.any (begun i) with
      | true => simp [e] at d
      | false => simp [b]
    | messagePanic _ w' _ a b d =>
      rw [hq w' a b] at d
      split at d <;> simp at d
  · rintro L rfl
    cases hl' with
    | start a => simp
    | startPanic a => rw [hi.queues] at a; simp at a

/-- Two servers, the second in bind mode: routes, a connection, a message before `Start`, one after, the limit, and the end. -/
example : ∃ t, Steps Servers.Step (Servers.init (defaults "/")) ([.create 0 .plain, .op 0 (.addRouter 1 true)] ++ .create 1 (.user { zero with workerMode := "Bind", maxConn := 2 }) ::
    ([.op 1 (.addRouter 7 true), .op 1 (.addRouter 7 false), .op 1 (.addSlices 7 false), .op 1 (.connect 5 (some 1)), .op 1 (.message 5 7 .blocked), .op 1 (.start (some [.tcp])), .op 1 (.message 5 7 .router),
      .op 1 (.connect 6 (some 0)), .op 1 (.connect 8 none), .op 1 (.unpack 4096 true), .op 1 (.unpack 4097 false), .op 1 (.alive 9999999999 true), .op 1 (.alive 10000000000 false)] ++ [.op 1 (.disconnect 5 true)])) t ∧
    t.glob.workerMode = "Bind" ∧ t.glob.maxConn = 2 := by
  refine ⟨_, .cons (.create _ 0 .plain rfl trivial) (.cons (.op _ 0 _ _ _ rfl (.addRouter _ 1 rfl (by simp [newServer]))) (.cons (.create _ 1 _ rfl trivial)
    (.cons (.op _ 1 _ _ _ rfl (.addRouter _ 7 rfl (by simp [newServer]))) (.cons (.op _ 1 _ _ _ rfl (.addRouterPanic _ 7 (.inr (by simp)))) (.cons (.op _ 1 _ _ _ rfl (.addSlicesPanic _ 7 (.inl rfl)))
    (.cons (.op _ 1 _ _ _ rfl (.connectFree _ 5 1 [0, 1] (by decide) (.inl rfl) rfl (by decide))) (.cons (.op _ 1 _ _ _ rfl (.messageBlocked _ 5 1 7 (by decide) (by decide) (by decide)))
    (.cons (.op _ 1 _ _ _ rfl (.start _ (by decide))) (.cons (.op _ 1 _ _ _ rfl (.message _ 5 1 7 (by decide) (by decide) (by decide)))
    (.cons (.op _ 1 _ _ _ rfl (.connectFree _ 6 0 [0] (by decide) (.inl rfl) rfl (by decide))) (.cons (.op _ 1 _ _ _ rfl (.refuse _ 8 (by decide)))
    (.cons (.op _ 1 _ _ _ rfl (.unpack _ 4096 (by decide))) (.cons (.op _ 1 _ _ _ rfl (.unpack _ 4097 (by decide))) (.cons (.op _ 1 _ _ _ rfl (.alive _ 9999999999)) (.cons (.op _ 1 _ _ _ rfl (.alive _ 10000000000))
    (.cons (.op _ 1 _ _ _ rfl (.leaveFree _ 5 1 [] (by decide) (.inl rfl) rfl)) (.nil _))))))))))))))))), rfl, rfl⟩

end Zinx.Props
