import Verif.Model.FirstClient
import Verif.Props.Conf

/-! # C132: which configurations serve a client -/

namespace Zinx.Props

open Zinx Zinx.Conf Zinx.FirstClient

/-- The conditions on the configuration, in terms of its settings. -/
structure CanServe (g : Config) (hb : Option Int) (loads : Bool) (t : Transport) : Prop where
  /-- the server listens for the transport -/
  mode : (g.mode = "tcp" ∧ t = .tcp) ∨ (g.mode = "websocket" ∧ t = .ws) ∨ (g.mode = "kcp" ∧ t = .kcp) ∨
    (g.mode ∉ ["tcp", "websocket", "kcp"] ∧ (t = .tcp ∨ t = .ws))
  /-- the certificate, if one is named and a TCP listener opened, can be loaded -/
  certificate : g.mode ≠ "websocket" → g.mode ≠ "kcp" → g.certFile ≠ "" → g.privateKeyFile ≠ "" → loads = true
  /-- there may be a connection -/
  room : 0 < g.maxConn
  /-- with dynamic binding there are not more workers than connections -/
  workers : g.workerMode = "DynamicBind" → (g.workerPoolSize.toNat : Int) ≤ g.maxConn % 2 ^ 32
  /-- the read buffer is not empty -/
  buffer : t ≠ .ws → 0 < g.ioReadBuffSize.toNat
  /-- heartbeats have an interval -/
  interval : ∀ i, hb = some i → 0 < i

theorem startPanics_iff (g : Config) : StartPanics g ↔ ¬ (g.workerMode = "DynamicBind" → (g.workerPoolSize.toNat : Int) ≤ g.maxConn % 2 ^ 32) := by
  unfold StartPanics queues pool conns32
  by_cases h : g.workerMode = "DynamicBind"
  · simp [h]; omega
  · by_cases h2 : g.workerMode = "Bind" <;> simp [h, h2]

theorem listens_iff (g : Config) (t : Transport) : listens g t = true ↔
    (g.mode = "tcp" ∧ t = .tcp) ∨ (g.mode = "websocket" ∧ t = .ws) ∨ (g.mode = "kcp" ∧ t = .kcp) ∨
    (g.mode ∉ ["tcp", "websocket", "kcp"] ∧ (t = .tcp ∨ t = .ws)) := by
  unfold listens
  by_cases h1 : g.mode = "tcp"
  · simp [h1]
  · by_cases h2 : g.mode = "websocket"
    · simp [h2]
    · by_cases h3 : g.mode = "kcp"
      · simp [h3]
      · simp [h1, h2, h3]

theorem badCertificate_iff (g : Config) (loads : Bool) : BadCertificate g loads ↔
    ¬ (g.mode ≠ "websocket" → g.mode ≠ "kcp" → g.certFile ≠ "" → g.privateKeyFile ≠ "" → loads = true) := by
  unfold BadCertificate
  rw [listens_iff]
  by_cases h1 : g.mode = "tcp"
  · simp [h1]
  · by_cases h2 : g.mode = "websocket"
    · simp [h2]
    · by_cases h3 : g.mode = "kcp"
      · simp [h3]
      · simp [h1, h2, h3]

/-- A worker that `useWorker` can give is one whose queue exists. -/
theorem useWorker_made {g : Config} (hs : ¬ StartPanics g) (hp : pool g ≠ 0) {w : Nat} (h : UseWorker g w) : w < queues g ∧ Made g w := by
  have hle : pool g ≤ queues g := by unfold StartPanics at hs; omega
  cases h with
  | free h => exact ⟨by have := h.2; omega, .inl h.2⟩
  | extra _ h => exact ⟨by unfold queues; rw [if_pos h.1]; exact h.2.2, .inr h⟩
  | none _ _ h => exact absurd h hp
  | rest _ _ _ =>
    have : 1 % pool g < pool g := Nat.mod_lt _ (by omega)
    exact ⟨by omega, .inl this⟩

theorem useWorker_exists (g : Config) : ∃ w, UseWorker g w := by
  by_cases h1 : ∃ v, Free g v
  · obtain ⟨v, h⟩ := h1; exact ⟨v, .free h⟩
  · have h1 : ∀ v, ¬ Free g v := fun v h => h1 ⟨v, h⟩
    by_cases h2 : ∃ v, Extra g v
    · obtain ⟨v, h⟩ := h2; exact ⟨v, .extra h1 h⟩
    · have h2 : ∀ v, ¬ Extra g v := fun v h => h2 ⟨v, h⟩
      by_cases h3 : pool g = 0
      · exact ⟨_, .none h1 h2 h3⟩
      · exact ⟨_, .rest h1 h2 h3⟩

/-- Something becomes of every first message. -/
theorem first_exists (g : Config) (hb : Option Int) (loads : Bool) (t : Transport) : ∃ o, First g hb loads t o := by
  by_cases h1 : StartPanics g
  · exact ⟨_, .start h1⟩
  by_cases h2 : BadCertificate g loads
  · exact ⟨_, .certificate h1 h2⟩
  cases h3 : listens g t with
  | false => exact ⟨_, .silent h1 h2 h3⟩
  | true =>
    by_cases h4 : 0 < g.maxConn
    · by_cases h5 : ∀ i, hb = some i → 0 < i
      · by_cases h6 : t = .ws ∨ g.ioReadBuffSize ≠ 0
        · by_cases h7 : pool g = 0
          · exact ⟨_, .alone h1 h2 h3 h4 h5 h6 h7⟩
          · obtain ⟨w, hw⟩ := useWorker_exists g
            obtain ⟨a, b⟩ := useWorker_made h1 h7 hw
            exact ⟨_, .served h1 h2 h3 h4 h5 h6 h7 hw a b⟩
        · refine ⟨_, .empty h1 h2 h3 h4 h5 (fun h => h6 (.inl h)) ?_⟩
          by_cases h : g.ioReadBuffSize = 0
          · exact h
          · exact absurd (.inr h) h6
      · cases hb with
        | none => exact absurd (fun i hi => by cases hi) h5
        | some i =>
          refine ⟨_, .ticker h1 h2 h3 h4 rfl ?_⟩
          by_cases h : 0 < i
          · exact absurd (fun j hj => by cases hj; exact h) h5
          · omega
    · exact ⟨_, .full h1 h2 h3 (by omega)⟩

/-- **C132, exactly.** The first message of the first client reaches its router, and the process goes on, exactly under the conditions `CanServe`
on the settings, whichever worker is chosen; otherwise it never does. -/
theorem C132_exact (g : Config) (hb : Option Int) (loads : Bool) (t : Transport) :
    ((∀ o, First g hb loads t o → o.good) ↔ CanServe g hb loads t) ∧ ((∃ o, First g hb loads t o ∧ o.good) ↔ CanServe g hb loads t) := by
  have bad : ∀ o, First g hb loads t o → o.good → CanServe g hb loads t := by
    intro o h ho
    have make : ¬ StartPanics g → ¬ BadCertificate g loads → listens g t = true → 0 < g.maxConn → (∀ i, hb = some i → 0 < i) →
        (t = .ws ∨ g.ioReadBuffSize ≠ 0) → CanServe g hb loads t := by
      intro h1 h2 h3 h4 h5 h6
      refine ⟨(listens_iff g t).1 h3, Classical.not_not.1 (mt (badCertificate_iff g loads).2 h2), h4, Classical.not_not.1 (mt (startPanics_iff g).2 h1), fun ht => ?_, h5⟩
      rcases h6 with h6 | h6
      · exact absurd h6 ht
      · have : g.ioReadBuffSize.toNat ≠ 0 := fun h => h6 (UInt32.toNat_inj.1 (by simpa using h))
        omega
    cases h with
    | alone h1 h2 h3 h4 h5 h6 _ => exact make h1 h2 h3 h4 h5 h6
    | served h1 h2 h3 h4 h5 h6 _ _ _ _ => exact make h1 h2 h3 h4 h5 h6
    | start | certificate | silent | full | ticker | empty | outside | stuck => exact absurd ho (by simp [Outcome.good])
  have good : CanServe g hb loads t → ∀ o, First g hb loads t o → o.good := by
    intro hc o h
    have n1 : ¬ StartPanics g := fun h => (startPanics_iff g).1 h hc.workers
    have n2 : ¬ BadCertificate g loads := fun h => (badCertificate_iff g loads).1 h hc.certificate
    have n3 : listens g t = true := (listens_iff g t).2 hc.mode
    have n6 : t ≠ .ws → g.ioReadBuffSize ≠ 0 := fun ht h => by have := hc.buffer ht; rw [h] at this; simp at this
    have := hc.room
    cases h with
    | start h => exact absurd h n1
    | certificate _ h => exact absurd h n2
    | silent _ _ h => rw [n3] at h; cases h
    | full _ _ _ h => omega
    | ticker _ _ _ _ h h' => have := hc.interval _ h; omega
    | empty _ _ _ _ _ h h' => exact absurd h' (n6 h)
    | alone => trivial
    | outside _ _ _ _ _ _ hp hw h => have := (useWorker_made n1 hp hw).1; omega
    | stuck _ _ _ _ _ _ hp hw _ h => exact absurd (useWorker_made n1 hp hw).2 h
    | served => trivial
  refine ⟨⟨fun h => ?_, good⟩, ⟨fun ⟨o, h, ho⟩ => bad o h ho, fun h => ?_⟩⟩
  · obtain ⟨o, ho⟩ := first_exists g hb loads t
    exact bad o ho (h o ho)
  · obtain ⟨o, ho⟩ := first_exists g hb loads t
    exact ⟨o, ho, good h o ho⟩

/-- **C132, with a configuration of the user** on top of the built-in one, for TCP: what has to be right of the user's settings, 0 and the empty
string standing for "not set". -/
theorem C132_user (u : Config) (dir : String) (hb : Option Int) (loads : Bool) :
    (∀ o, First (userConfToGlobal u (defaults dir)).1 hb loads .tcp o → o.good) ↔
      u.mode ≠ "websocket" ∧ u.mode ≠ "kcp" ∧ (u.certFile ≠ "" → u.privateKeyFile ≠ "" → loads = true) ∧ 0 ≤ u.maxConn ∧
      (u.workerMode = "DynamicBind" → ((if u.workerPoolSize = 0 then 10 else u.workerPoolSize.toNat : Nat) : Int) ≤ (if u.maxConn = 0 then 12000 else u.maxConn) % 2 ^ 32) ∧
      (∀ i, hb = some i → 0 < i) := by
  rw [(C132_exact _ hb loads .tcp).1]
  have hmode : (userConfToGlobal u (defaults dir)).1.mode = if u.mode = "" then "tcp" else u.mode := by
    have := C59_partial u (defaults dir) .mode (by decide)
    by_cases h : u.mode = "" <;> simpa [Config.get, Value.isZero, h, defaults] using this
  have hcert : (userConfToGlobal u (defaults dir)).1.certFile = u.certFile := by
    have := C59_partial u (defaults dir) .certFile (by decide)
    by_cases h : u.certFile = "" <;> simpa [Config.get, Value.isZero, h, defaults] using this
  have hkey : (userConfToGlobal u (defaults dir)).1.privateKeyFile = u.privateKeyFile := by
    have := C59_partial u (defaults dir) .privateKeyFile (by decide)
    by_cases h : u.privateKeyFile = "" <;> simpa [Config.get, Value.isZero, h, defaults] using this
  have hconn : (userConfToGlobal u (defaults dir)).1.maxConn = if u.maxConn = 0 then 12000 else u.maxConn := by
    have := C59_partial u (defaults dir) .maxConn (by decide)
    by_cases h : u.maxConn = 0 <;> simpa [Config.get, Value.isZero, h, defaults] using this
  have hpool : (userConfToGlobal u (defaults dir)).1.workerPoolSize = if u.workerPoolSize = 0 then 10 else u.workerPoolSize := by
    have := C59_partial u (defaults dir) .workerPoolSize (by decide)
    by_cases h : u.workerPoolSize = 0 <;> simpa [Config.get, Value.isZero, h, defaults] using this
  have hwork : (userConfToGlobal u (defaults dir)).1.workerMode = u.workerMode := by
    have := C59_partial u (defaults dir) .workerMode (by decide)
    by_cases h : u.workerMode = "" <;> simpa [Config.get, Value.isZero, h, defaults] using this
  have hbuf : (userConfToGlobal u (defaults dir)).1.ioReadBuffSize = if u.ioReadBuffSize = 0 then 1024 else u.ioReadBuffSize := by
    have := C59_partial u (defaults dir) .ioReadBuffSize (by decide)
    by_cases h : u.ioReadBuffSize = 0 <;> simpa [Config.get, Value.isZero, h, defaults] using this
  have hb2 : 0 < (userConfToGlobal u (defaults dir)).1.ioReadBuffSize.toNat := by
    rw [hbuf]
    by_cases h : u.ioReadBuffSize = 0
    · simp [h]
    · rw [if_neg h]
      have : u.ioReadBuffSize.toNat ≠ 0 := fun h' => h (UInt32.toNat_inj.1 (by simpa using h'))
      omega
  have hp2 : (userConfToGlobal u (defaults dir)).1.workerPoolSize.toNat = if u.workerPoolSize = 0 then 10 else u.workerPoolSize.toNat := by
    rw [hpool]; split <;> rfl
  constructor
  · intro ⟨h1, h2, h3, h4, _, h6⟩
    rw [hmode] at h1 h2
    rw [hcert, hkey] at h2
    rw [hconn] at h3 h4
    rw [hwork, hp2] at h4
    have m1 : u.mode ≠ "websocket" := by intro h; rw [h] at h1; simp at h1
    have m2 : u.mode ≠ "kcp" := by intro h; rw [h] at h1; simp at h1
    refine ⟨m1, m2, fun a b => h2 ?_ ?_ a b, ?_, h4, h6⟩
    · split
      · decide
      · exact m1
    · split
      · decide
      · exact m2
    · split at h3 <;> omega
  · intro ⟨m1, m2, h2, h3, h4, h6⟩
    refine ⟨?_, ?_, ?_, ?_, fun _ => hb2, h6⟩
    · rw [hmode]
      by_cases h : u.mode = ""
      · simp [h]
      · by_cases h' : u.mode = "tcp"
        · simp [h']
        · simp [h, h', m1, m2]
    · intro _ _; rw [hcert, hkey]; exact h2
    · rw [hconn]; split <;> omega
    · rw [hwork, hp2, hconn]; exact h4

/-- **C132, where it never fails.** Whatever the settings, the first message never ends in front of a queue that does not exist or was not made: what is wrong shows earlier. -/
theorem C132_no_queue (g : Config) (hb : Option Int) (loads : Bool) (t : Transport) :
    ¬ First g hb loads t .deliveryPanics ∧ ¬ First g hb loads t .stuck := by
  constructor
  · intro h
    cases h with
    | outside h1 _ _ _ _ _ hp hu hq => exact absurd (useWorker_made h1 hp hu).1 (by omega)
  · intro h
    cases h with
    | stuck h1 _ _ _ _ _ hp hu _ hm => exact hm (useWorker_made h1 hp hu).2

/-- **C132, refuted:** settings that cannot be served are not refused when the server is made; each of them alone is enough. -/
theorem C132_refuted (loads : Bool) :
    First { defaults "." with workerMode := "DynamicBind", maxConn := 5 } none loads .tcp .startPanics ∧
    First (defaults ".") (some 0) loads .tcp .processEnds ∧
    First { defaults "." with maxConn := -1 } none loads .tcp .notAccepted ∧
    First { defaults "." with ioReadBuffSize := 0 } none loads .tcp .notRead ∧
    First { defaults "." with certFile := "a", privateKeyFile := "b" } none false .tcp .processEnds := by
  have d : ¬ StartPanics (defaults ".") := by unfold StartPanics; decide
  refine ⟨.start (by unfold StartPanics; decide), .ticker d ?_ (by decide) (by decide) rfl (by decide), .full (by unfold StartPanics; decide) ?_ (by decide) (by decide),
    .empty (by unfold StartPanics; decide) ?_ (by decide) (by decide) (by simp) (by decide) rfl, .certificate (by unfold StartPanics; decide) ⟨by decide, by decide, by decide, rfl⟩⟩
  all_goals (intro h; exact absurd h.2.1 (by decide))

/-- The default configuration meets the conditions, also with one of the user. -/
example : CanServe (defaults ".") (some 30000000000) false .tcp :=
  ⟨by decide, by simp [defaults], by decide, by decide, by decide, by simp⟩

example : First { defaults "." with workerMode := "Bind", maxConn := 3 } none false .tcp (.served 2) :=
  .served (by unfold StartPanics; decide) (fun h => absurd h.2.1 (by decide)) (by decide) (by decide) (by simp) (.inr (by decide)) (by decide)
    (.free ⟨.inl rfl, by decide⟩) (by decide) (.inl (by decide))

end Zinx.Props
