import Verif.Model.WsMux

/-! # C94: WebSocket listeners of one process -/

namespace Zinx.Props

open Zinx Zinx.WsMux

/-- A pattern covers a path: it is the path, or it ends in a slash and the path begins with it. -/
def covers (q p : Path) : Prop := q = p ∨ q.getLast? = some '/' ∧ q <+: p

theorem lookup_mem {mux : List (Path × Nat)} {p : Path} {i : Nat} (h : mux.lookup p = some i) : (p, i) ∈ mux := by
  induction mux with
  | nil => simp at h
  | cons a r ih =>
    obtain ⟨q, j⟩ := a
    by_cases hq : p = q
    · subst hq; simp at h; simp [h]
    · have hb : (p == q) = false := by simpa using hq
      simp only [List.lookup, hb] at h
      simp [ih h]

theorem lookup_none {mux : List (Path × Nat)} {p : Path} (h : mux.lookup p = none) (i : Nat) : (p, i) ∉ mux := by
  induction mux with
  | nil => simp
  | cons a r ih =>
    obtain ⟨q, j⟩ := a
    by_cases hq : p = q
    · subst hq; simp at h
    · have hb : (p == q) = false := by simpa using hq
      simp only [List.lookup, hb] at h
      simp [ih h, hq]

theorem subtree_some {mux : List (Path × Nat)} {p q : Path} {i : Nat} (h : subtree p mux = some (q, i)) :
    (q, i) ∈ mux ∧ q.getLast? = some '/' ∧ q <+: p ∧ ∀ q' j, (q', j) ∈ mux → q'.getLast? = some '/' → q' <+: p → q'.length ≤ q.length := by
  induction mux generalizing q i with
  | nil => simp [subtree] at h
  | cons a r ih =>
    obtain ⟨q1, j1⟩ := a
    simp only [subtree] at h
    cases hr : subtree p r with
    | none =>
      have hn : ∀ q' j, (q', j) ∈ r → q'.getLast? = some '/' → q' <+: p → False := by
        clear ih h
        induction r with
        | nil => simp
        | cons b r ih2 =>
          obtain ⟨q2, j2⟩ := b
          simp only [subtree] at hr
          by_cases hc : q2.getLast? = some '/' ∧ q2 <+: p
          · rw [if_pos hc] at hr
            cases h2 : subtree p r <;> simp [longer, h2] at hr
            split at hr <;> simp at hr
          · rw [if_neg hc] at hr
            intro q' j hm h1 h2
            rcases List.mem_cons.mp hm with hm | hm
            · cases hm; exact hc ⟨h1, h2⟩
            · exact ih2 (by simpa [longer] using hr) q' j hm h1 h2
      rw [hr] at h
      by_cases hc : q1.getLast? = some '/' ∧ q1 <+: p
      · rw [if_pos hc] at h
        simp [longer] at h
        obtain ⟨rfl, rfl⟩ := h
        refine ⟨by simp, hc.1, hc.2, ?_⟩
        intro q' j hm h1 h2
        rcases List.mem_cons.mp hm with hm | hm
        · cases hm; exact Nat.le_refl _
        · exact (hn q' j hm h1 h2).elim
      · rw [if_neg hc] at h; simp [longer] at h
    | some b =>
      obtain ⟨q2, j2⟩ := b
      obtain ⟨m2, l2, p2, b2⟩ := ih hr
      rw [hr] at h
      by_cases hc : q1.getLast? = some '/' ∧ q1 <+: p
      · rw [if_pos hc] at h
        simp only [longer] at h
        split at h <;> (simp at h; obtain ⟨rfl, rfl⟩ := h)
        · refine ⟨by simp, hc.1, hc.2, ?_⟩
          intro q' j hm h1 h2
          rcases List.mem_cons.mp hm with hm | hm
          · cases hm; exact Nat.le_refl _
          · have := b2 q' j hm h1 h2; omega
        · refine ⟨by simp [m2], l2, p2, ?_⟩
          intro q' j hm h1 h2
          rcases List.mem_cons.mp hm with hm | hm
          · cases hm; omega
          · exact b2 q' j hm h1 h2
      · rw [if_neg hc] at h
        simp [longer] at h
        obtain ⟨rfl, rfl⟩ := h
        refine ⟨by simp [m2], l2, p2, ?_⟩
        intro q' j hm h1 h2
        rcases List.mem_cons.mp hm with hm | hm
        · cases hm; exact absurd ⟨h1, h2⟩ hc
        · exact b2 q' j hm h1 h2

theorem subtree_none {mux : List (Path × Nat)} {p : Path} (h : subtree p mux = none) : ∀ q j, (q, j) ∈ mux → ¬ (q.getLast? = some '/' ∧ q <+: p) := by
  induction mux with
  | nil => simp
  | cons b r ih =>
    obtain ⟨q2, j2⟩ := b
    simp only [subtree] at h
    by_cases hc : q2.getLast? = some '/' ∧ q2 <+: p
    · rw [if_pos hc] at h
      cases h2 : subtree p r <;> simp [longer, h2] at h
      split at h <;> simp at h
    · rw [if_neg hc] at h
      intro q' j hm
      rcases List.mem_cons.mp hm with hm | hm
      · cases hm; exact hc
      · exact ih (by simpa [longer] using h) q' j hm

/-- A start of server `i`. -/
def startsWs (i : Nat) : WsMux.Label → Bool
  | .start j => j == i
  | _ => false

/-- The multiplexer has the paths of the servers that registered, each path once. -/
structure MuxInv (conf : Nat → Conf) (ls : List WsMux.Label) (s : WsMux.State) : Prop where
  entries : ∀ q i, (q, i) ∈ s.mux ↔ q = (conf i).path ∧ .register i ∈ ls
  once : ∀ q i j, (q, i) ∈ s.mux → (q, j) ∈ s.mux → i = j
  found : ∀ q i, (q, i) ∈ s.mux → s.mux.lookup q = some i

theorem muxInv_step {conf : Nat → Conf} {taken : Nat → Prop} {ls : List WsMux.Label} {s t : WsMux.State} {l : WsMux.Label} (h : MuxInv conf ls s) (hs : WsMux.Step conf taken s l t) :
    MuxInv conf (ls ++ [l]) t := by
  obtain ⟨h1, h2, h3⟩ := h
  cases hs with
  | register i hd hr hp hn =>
    have hnew := lookup_none hn
    refine ⟨?_, ?_, ?_⟩
    · intro q j
      simp only [List.mem_cons, Prod.mk.injEq, h1, List.mem_append, WsMux.Label.register.injEq, List.not_mem_nil, or_false]
      constructor
      · rintro (⟨rfl, rfl⟩ | ⟨a, b⟩)
        · exact ⟨rfl, .inr rfl⟩
        · exact ⟨a, .inl b⟩
      · rintro ⟨rfl, a | rfl⟩
        · exact .inr ⟨rfl, a⟩
        · exact .inl ⟨rfl, rfl⟩
    · intro q a b ha hb
      rcases List.mem_cons.mp ha with ha | ha <;> rcases List.mem_cons.mp hb with hb | hb
      · cases ha; cases hb; rfl
      · cases ha; exact absurd hb (hnew b)
      · cases hb; exact absurd ha (hnew a)
      · exact h2 q a b ha hb
    · intro q a ha
      rcases List.mem_cons.mp ha with ha | ha
      · cases ha; simp
      · have hq : q ≠ (conf i).path := by rintro rfl; exact hnew a ha
        have hb : (q == (conf i).path) = false := by simpa using hq
        simp only [List.lookup, hb, h3 q a ha]
  | _ => exact ⟨by simpa using h1, h2, h3⟩

theorem muxInv {conf : Nat → Conf} {taken : Nat → Prop} {ls : List WsMux.Label} {t : WsMux.State} (h : Steps (WsMux.Step conf taken) {} ls t) : MuxInv conf ls t :=
  h.invariant_trace (P := MuxInv conf) (fun _ _ _ _ h hs => muxInv_step h hs) ⟨by simp, by simp, by simp⟩

/-- **C94** is false: two servers with different addresses, both with the path that is the default, end the process. -/
theorem C94_panic_refuted : ∃ ls t, Steps (WsMux.Step (fun i => ⟨9000 + i, ['/']⟩) (fun _ => False)) {} ls t ∧ WsMux.Label.panic 1 ∈ ls ∧ ∀ i, (ls.filter (startsWs i)).length ≤ 1 := by
  refine ⟨[.start 0, .start 1, .register 0, .listen 0, .panic 1], _, .cons (.start _ 0 rfl (by simp)) (.cons (.start _ 1 rfl (by simp)) (.cons (.register _ 0 rfl (by simp) (by simp) rfl)
    (.cons (.listen _ 0 rfl (by simp) (by simp) nofun) (.cons (.registerPanic _ 1 rfl (by simp) (.inr rfl)) (.nil _))))), by simp, ?_⟩
  intro i
  by_cases h0 : 0 = i <;> by_cases h1 : 1 = i <;> simp [startsWs, h0, h1] <;> omega

/-- … a server that is started, stopped and started again does. -/
theorem C94_restart_refuted : ∃ ls t, Steps (WsMux.Step (fun i => ⟨9000 + i, ['/']⟩) (fun _ => False)) {} ls t ∧ WsMux.Label.panic 0 ∈ ls ∧ ∀ i, WsMux.Label.start i ∈ ls → i = 0 :=
  ⟨[.start 0, .register 0, .listen 0, .stop 0, .start 0, .panic 0], _, .cons (.start _ 0 rfl (by simp)) (.cons (.register _ 0 rfl (by simp) (by simp) rfl)
    (.cons (.listen _ 0 rfl (by simp) (by simp) nofun) (.cons (.stop _ 0 rfl) (.cons (.start _ 0 rfl (by simp)) (.cons (.registerPanic _ 0 rfl (by simp) (.inr rfl)) (.nil _)))))), by simp, by simp⟩

/-- … and with different paths, a request at the address of one server with the path of another is answered by the other, to whose address nobody has connected. -/
theorem C94_foreign_refuted : ∃ conf : Nat → Conf, ∃ ls t, Steps (WsMux.Step conf (fun _ => False)) {} ls t ∧
    (conf 0).addr ≠ (conf 1).addr ∧ WsMux.Label.request (conf 0).addr (conf 1).path (.served 1) ∈ ls :=
  ⟨fun i => ⟨9000 + i, if i = 0 then ['/', 'a'] else ['/', 'b']⟩,
    [.start 0, .start 1, .register 0, .listen 0, .register 1, .request 9000 ['/', 'b'] (.served 1)], _,
    .cons (.start _ 0 rfl (by simp)) (.cons (.start _ 1 rfl (by simp)) (.cons (.register _ 0 rfl (by simp) (by simp) rfl)
    (.cons (.listen _ 0 rfl (by simp) (by simp) nofun) (.cons (.register _ 1 rfl (by simp) (by simp) rfl) (.cons (.request _ 9000 ['/', 'b'] rfl (by simp) rfl) (.nil _)))))), by simp, by simp⟩

/-- A request with the path of a server that has registered is answered by this server, at whatever address it comes. -/
theorem C94_own_partial (conf : Nat → Conf) (taken : Nat → Prop) (ls : List WsMux.Label) (t : WsMux.State) (a i : Nat) (r : Answer)
    (h : Steps (WsMux.Step conf taken) {} (ls ++ [.request a (conf i).path r]) t) (hr : .register i ∈ ls) : r = .served i := by
  obtain ⟨s, h1, h2⟩ := Steps.unsnoc h
  have hi := muxInv h1
  cases h2
  simp [answer, hi.found _ i ((hi.entries _ i).2 ⟨rfl, hr⟩)]

/-- In general the answer is that of the server with the longest path that covers that of the request. -/
theorem C94_longest_partial (conf : Nat → Conf) (taken : Nat → Prop) (ls : List WsMux.Label) (t : WsMux.State) (a : Nat) (p : Path) (r : Answer)
    (h : Steps (WsMux.Step conf taken) {} (ls ++ [.request a p r]) t) :
    (∀ i, r = .served i → .register i ∈ ls ∧ covers (conf i).path p ∧ ∀ j, .register j ∈ ls → covers (conf j).path p → (conf j).path.length ≤ (conf i).path.length) ∧
    (r = .redirect → ∃ i, .register i ∈ ls ∧ (conf i).path = p ++ ['/']) ∧ (r = .notFound → ∀ i, .register i ∈ ls → ¬ covers (conf i).path p) := by
  obtain ⟨s, h1, h2⟩ := Steps.unsnoc h
  have hi := muxInv h1
  cases h2
  simp only [answer]
  cases hl : t.mux.lookup p with
  | some k =>
    refine ⟨?_, by simp, by simp⟩
    rintro i hk
    obtain rfl : k = i := by simpa using hk
    obtain ⟨hp, hm⟩ := (hi.entries _ _).1 (lookup_mem hl)
    refine ⟨hm, .inl hp.symm, ?_⟩
    rintro j _ (hj | ⟨_, hj⟩)
    · rw [hj, hp]; exact Nat.le_refl _
    · rw [← hp]; exact hj.length_le
  | none =>
    have hno : ∀ i, .register i ∈ ls → (conf i).path ≠ p := fun i hm he => lookup_none hl i ((hi.entries _ _).2 ⟨he.symm, hm⟩)
    by_cases hc : p.getLast? ≠ some '/' ∧ (t.mux.lookup (p ++ ['/'])).isSome
    · simp only [if_pos hc]
      refine ⟨by simp, fun _ => ?_, by simp⟩
      obtain ⟨k, hk⟩ := Option.isSome_iff_exists.mp hc.2
      obtain ⟨hp, hm⟩ := (hi.entries _ _).1 (lookup_mem hk)
      exact ⟨k, hm, hp.symm⟩
    · simp only [if_neg hc]
      cases hs : subtree p t.mux with
      | none =>
        refine ⟨by simp, by simp, fun _ i hm => ?_⟩
        rintro (he | he)
        · exact hno i hm he
        · exact subtree_none hs _ i ((hi.entries _ _).2 ⟨rfl, hm⟩) he
      | some b =>
        obtain ⟨q, k⟩ := b
        obtain ⟨hm, h5, h6, h7⟩ := subtree_some hs
        refine ⟨?_, by simp, by simp⟩
        rintro i hk
        obtain rfl : k = i := by simpa using hk
        obtain ⟨rfl, hm2⟩ := (hi.entries _ _).1 hm
        refine ⟨hm2, .inr ⟨h5, h6⟩, ?_⟩
        rintro j hj (he | he)
        · exact absurd he (hno j hj)
        · exact h7 _ j ((hi.entries _ _).2 ⟨rfl, hj⟩) he.1 he.2

/-- The servers listened for. -/
theorem bound_listen {conf : Nat → Conf} {taken : Nat → Prop} {ls : List WsMux.Label} {t : WsMux.State} (h : Steps (WsMux.Step conf taken) {} ls t) (a : Nat) :
    a ∈ t.bound ↔ ∃ i, .listen i ∈ ls ∧ (conf i).addr = a := by
  refine h.invariant_trace (P := fun ls t => a ∈ t.bound ↔ ∃ i, .listen i ∈ ls ∧ (conf i).addr = a) ?_ (by simp)
  intro ls s l t ih hs
  cases hs with
  | listen i =>
    simp only [List.mem_cons, ih, List.mem_append, WsMux.Label.listen.injEq, List.not_mem_nil, or_false]
    constructor
    · rintro (rfl | ⟨j, hj, rfl⟩)
      · exact ⟨i, .inr rfl, rfl⟩
      · exact ⟨j, .inl hj, rfl⟩
    · rintro ⟨j, hj | rfl, rfl⟩
      · exact .inr ⟨j, hj, rfl⟩
      · exact .inl rfl
  | _ => simpa using ih

/-- The answer does not depend on the address: at the address of any server that listens the same request gets the same answer. -/
theorem C94_everywhere (conf : Nat → Conf) (taken : Nat → Prop) (ls : List WsMux.Label) (t : WsMux.State) (a : Nat) (p : Path) (r : Answer)
    (h : Steps (WsMux.Step conf taken) {} (ls ++ [.request a p r]) t) (j : Nat) (hj : .listen j ∈ ls) : Steps (WsMux.Step conf taken) {} (ls ++ [.request (conf j).addr p r]) t := by
  obtain ⟨s, h1, h2⟩ := Steps.unsnoc h
  have hb := (bound_listen h1 (conf j).addr).2 ⟨j, hj, rfl⟩
  cases h2 with
  | request _ _ hd _ hp => exact h1.snoc (.request _ _ _ hd hb hp)

/-- Where the servers are: every start is a goroutine before the registration, before the listening, or listening. -/
structure StartInv (ls : List WsMux.Label) (s : WsMux.State) : Prop where
  calm : ∀ i, .panic i ∉ ls
  reg : ∀ i, i ∈ s.reg → .start i ∈ ls ∧ .register i ∉ ls
  rnd : s.reg.Nodup
  lis : ∀ i, i ∈ s.lis → .register i ∈ ls ∧ .listen i ∉ ls
  lnd : s.lis.Nodup
  did : ∀ i, .register i ∈ ls → .start i ∈ ls
  dli : ∀ i, .listen i ∈ ls → .register i ∈ ls

/-- Every server is started once, and with an address and a path that no other has. -/
structure ApartStarts (conf : Nat → Conf) (taken : Nat → Prop) (ls : List WsMux.Label) : Prop where
  once : ∀ i, (ls.filter (startsWs i)).length ≤ 1
  diff : ∀ i j, WsMux.Label.start i ∈ ls → WsMux.Label.start j ∈ ls → i ≠ j → (conf i).addr ≠ (conf j).addr ∧ (conf i).path ≠ (conf j).path
  good : ∀ i, WsMux.Label.start i ∈ ls → (conf i).path ≠ [] ∧ ¬ taken (conf i).addr

theorem startInv_step {conf : Nat → Conf} {taken : Nat → Prop} {ls : List WsMux.Label} {s t : WsMux.State} {l : WsMux.Label} (hp : ApartStarts conf taken (ls ++ [l])) (hm : MuxInv conf ls s)
    (hb : ∀ a, a ∈ s.bound ↔ ∃ i, .listen i ∈ ls ∧ (conf i).addr = a) (h : StartInv ls s) (hs : WsMux.Step conf taken s l t) : StartInv (ls ++ [l]) t := by
  obtain ⟨h1, h2, h3, h4, h5, h6, h7⟩ := h
  cases hs with
  | start i =>
    have hn : .start i ∉ ls := by
      intro hm
      have := hp.once i
      rw [List.filter_append, List.length_append] at this
      have h8 : 0 < (ls.filter (startsWs i)).length := List.length_pos_of_mem (List.mem_filter.mpr ⟨hm, by simp [startsWs]⟩)
      simp only [startsWs, List.filter_cons, beq_self_eq_true, if_true, List.filter_nil, List.length_singleton] at this
      omega
    have hn2 : .register i ∉ ls := fun hm => hn (h6 i hm)
    have hn3 : i ∉ s.reg := fun hm => hn (h2 i hm).1
    constructor
    · simpa using h1
    · intro j hj
      rcases List.mem_cons.mp hj with rfl | hj
      · simp [hn2]
      · simp [h2 j hj]
    · simp [hn3, h3]
    · simpa using h4
    · exact h5
    · intro j hj; simp at hj; simp [h6 j hj]
    · simpa using h7
  | stop i => exact ⟨by simpa using h1, by simpa using h2, h3, by simpa using h4, h5, by simpa using h6, by simpa using h7⟩
  | register i _ hr =>
    have ⟨hr1, hr2⟩ := h2 i hr
    have hl : i ∉ s.lis := fun hm => hr2 (h4 i hm).1
    constructor
    · simpa using h1
    · intro j hj
      have := h3.mem_erase_iff.mp hj
      simp [h2 j this.2, this.1]
    · exact h3.erase i
    · intro j hj
      rcases List.mem_cons.mp hj with rfl | hj
      · simp; exact fun hm => hr2 (h7 j hm)
      · simp [h4 j hj]
    · simp [hl, h5]
    · intro j hj
      simp at hj
      rcases hj with hj | rfl
      · simp [h6 j hj]
      · simp [hr1]
    · intro j hj; simp at hj; simp [h7 j hj]
  | registerPanic i _ hr hbad =>
    have ⟨hr1, hr2⟩ := h2 i hr
    rcases hbad with hbad | hbad
    · exact absurd hbad (hp.good i (by simp [hr1])).1
    · obtain ⟨k, hk⟩ := Option.isSome_iff_exists.mp hbad
      obtain ⟨he, hk2⟩ := (hm.entries _ _).1 (lookup_mem hk)
      by_cases hki : k = i
      · subst hki; exact absurd hk2 hr2
      · exact absurd he.symm (hp.diff k i (by simp [h6 k hk2]) (by simp [hr1]) hki).2
  | listen i _ hr =>
    have ⟨hr1, hr2⟩ := h4 i hr
    constructor
    · simpa using h1
    · intro j hj; simp [h2 j hj]
    · exact h3
    · intro j hj
      have := h5.mem_erase_iff.mp hj
      simp [h4 j this.2, this.1]
    · exact h5.erase i
    · intro j hj; simp at hj; simp [h6 j hj]
    · intro j hj
      simp at hj
      rcases hj with hj | rfl
      · simp [h7 j hj]
      · simp [hr1]
  | listenPanic i _ hr hbad =>
    have ⟨hr1, hr2⟩ := h4 i hr
    rcases hbad with hbad | hbad
    · obtain ⟨k, hk, he⟩ := (hb _).1 hbad
      by_cases hki : k = i
      · subst hki; exact absurd hk hr2
      · exact absurd he (hp.diff k i (by simp [h6 k (h7 k hk)]) (by simp [h6 i hr1]) hki).1
    · exact absurd hbad (hp.good i (by simp [h6 i hr1])).2
  | request => exact ⟨by simpa using h1, by simpa using h2, h3, by simpa using h4, h5, by simpa using h6, by simpa using h7⟩

theorem apart_prefix {conf : Nat → Conf} {taken : Nat → Prop} {ls ls' : List WsMux.Label} (h : ApartStarts conf taken (ls ++ ls')) : ApartStarts conf taken ls := by
  refine ⟨fun i => ?_, fun i j hi hj => h.diff i j (by simp [hi]) (by simp [hj]), fun i hi => h.good i (by simp [hi])⟩
  have := h.once i
  rw [List.filter_append, List.length_append] at this
  omega

/-- No panic, if every server is started once, and with an address and a path that no other has. -/
theorem C94_no_panic_partial (conf : Nat → Conf) (taken : Nat → Prop) (ls : List WsMux.Label) (t : WsMux.State) (h : Steps (WsMux.Step conf taken) {} ls t)
    (hp : ApartStarts conf taken ls) (i : Nat) : WsMux.Label.panic i ∉ ls := by
  have key : ApartStarts conf taken ls → (StartInv ls t ∧ ∃ u, Steps (WsMux.Step conf taken) {} ls u ∧ u = t) := by
    refine h.invariant_trace (P := fun ls t => ApartStarts conf taken ls → (StartInv ls t ∧ ∃ u, Steps (WsMux.Step conf taken) {} ls u ∧ u = t)) ?_
      (fun _ => ⟨⟨by simp, by simp, by simp, by simp, by simp, by simp, by simp⟩, _, .nil _, rfl⟩)
    intro ls s l t ih hs hp
    obtain ⟨h1, _, h2, rfl⟩ := ih (apart_prefix hp)
    exact ⟨startInv_step hp (muxInv h2) (bound_listen h2) h1 hs, _, h2.snoc hs, rfl⟩
  exact (key hp).1.calm i

/-- Servers start, register and listen in this order. -/
theorem ws_order {conf : Nat → Conf} {taken : Nat → Prop} {ls : List WsMux.Label} {t : WsMux.State} (h : Steps (WsMux.Step conf taken) {} ls t) (i : Nat) :
    (.register i ∈ ls → .start i ∈ ls) ∧ (.listen i ∈ ls → .register i ∈ ls) := by
  have : (i ∈ t.reg → .start i ∈ ls) ∧ (i ∈ t.lis → .register i ∈ ls) ∧ (.register i ∈ ls → .start i ∈ ls) ∧ (.listen i ∈ ls → .register i ∈ ls) := by
    refine h.invariant_trace (P := fun ls t => (i ∈ t.reg → .start i ∈ ls) ∧ (i ∈ t.lis → .register i ∈ ls) ∧ (.register i ∈ ls → .start i ∈ ls) ∧ (.listen i ∈ ls → .register i ∈ ls)) ?_ (by simp)
    rintro ls s l t ⟨h1, h2, h3, h4⟩ hs
    cases hs with
    | register j _ hr =>
      have e : i ∈ s.reg.erase j → i ∈ s.reg := List.mem_of_mem_erase
      by_cases hij : i = j
      · subst hij; simp_all
      · simp_all
    | listen j _ hr =>
      have e : i ∈ s.lis.erase j → i ∈ s.lis := List.mem_of_mem_erase
      by_cases hij : i = j
      · subst hij; simp_all
      · simp_all
    | start j =>
      by_cases hij : i = j
      · subst hij; simp_all
      · simp_all
    | _ => simpa using ⟨h1, h2, h3, h4⟩
  exact this.2.2

/-- If only one server is started, a request is answered by it exactly if its path covers that of the request, and comes at its address. -/
theorem C94_single_partial (conf : Nat → Conf) (taken : Nat → Prop) (ls : List WsMux.Label) (t : WsMux.State) (a i : Nat) (p : Path) (r : Answer)
    (h : Steps (WsMux.Step conf taken) {} (ls ++ [.request a p r]) t) (hi : ∀ j, .start j ∈ ls → j = i) : a = (conf i).addr ∧ (r = .served i ↔ covers (conf i).path p) := by
  have hc := C94_longest_partial conf taken ls t a p r h
  obtain ⟨s, h1, h2⟩ := Steps.unsnoc h
  have hreg : ∀ j, .register j ∈ ls → j = i := fun j hj => hi j ((ws_order h1 j).1 hj)
  have hba : a = (conf i).addr ∧ .register i ∈ ls := by
    cases h2 with
    | request _ _ _ ha _ =>
      obtain ⟨j, hj, he⟩ := (bound_listen h1 a).1 ha
      have hj := (ws_order h1 j).2 hj
      obtain rfl := hreg j hj
      exact ⟨he.symm, hj⟩
  refine ⟨hba.1, fun hr => (hc.1 i hr).2.1, fun hv => ?_⟩
  cases r with
  | served j => rw [hreg j (hc.1 j rfl).1]
  | notFound => exact absurd hv (hc.2.2 rfl i hba.2)
  | redirect =>
    obtain ⟨j, hj, he⟩ := hc.2.1 rfl
    obtain rfl := hreg j hj
    have hlen : (conf j).path.length = p.length + 1 := by rw [he]; simp
    rcases hv with hv | hv
    · rw [hv] at hlen; omega
    · have := hv.2.length_le; omega

/-- Two servers side by side, with a request for each and one for a path that nobody has. -/
example : ∃ ls t, Steps (WsMux.Step (fun i => ⟨9000 + i, if i = 0 then ['/', 'a'] else ['/', 'b', '/']⟩) (fun a => a = 80)) {} ls t ∧
    ApartStarts (fun i => ⟨9000 + i, if i = 0 then ['/', 'a'] else ['/', 'b', '/']⟩) (fun a => a = 80) ls ∧
    .register 0 ∈ ls ∧ WsMux.Label.request 9000 ['/', 'a'] (.served 0) ∈ ls ∧ WsMux.Label.request 9001 ['/', 'b', '/', 'c'] (.served 1) ∈ ls ∧ WsMux.Label.request 9001 ['/', 'c'] .notFound ∈ ls ∧
    WsMux.Label.request 9001 ['/', 'b'] .redirect ∈ ls := by
  refine ⟨[.start 0, .start 1, .register 0, .listen 0, .register 1, .listen 1, .request 9000 ['/', 'a'] (.served 0), .request 9001 ['/', 'b', '/', 'c'] (.served 1), .request 9001 ['/', 'c'] .notFound,
    .request 9001 ['/', 'b'] .redirect], _, .cons (.start _ 0 rfl (by simp)) (.cons (.start _ 1 rfl (by simp)) (.cons (.register _ 0 rfl (by simp) (by simp) rfl)
    (.cons (.listen _ 0 rfl (by simp) (by simp) (by simp)) (.cons (.register _ 1 rfl (by simp) (by simp) rfl) (.cons (.listen _ 1 rfl (by simp) (by simp) (by simp))
    (.cons (.request _ 9000 ['/', 'a'] rfl (by simp) rfl) (.cons (.request _ 9001 ['/', 'b', '/', 'c'] rfl (by simp) rfl) (.cons (.request _ 9001 ['/', 'c'] rfl (by simp) rfl)
    (.cons (.request _ 9001 ['/', 'b'] rfl (by simp) rfl) (.nil _)))))))))), ?_, by simp, by simp, by simp, by simp, by simp⟩
  constructor
  · intro i
    by_cases h0 : 0 = i <;> by_cases h1 : 1 = i <;> simp [startsWs, h0, h1] <;> omega
  · intro i j hi hj
    simp at hi hj
    rcases hi with rfl | rfl <;> rcases hj with rfl | rfl <;> simp
  · intro i hi
    simp at hi
    rcases hi with rfl | rfl <;> simp

/-- The hypotheses of C94_own_partial, C94_longest_partial, C94_everywhere and C94_single_partial are met. -/
example : ∃ ls t, Steps (WsMux.Step (fun i => ⟨9000 + i, ['/', 'a', '/']⟩) (fun a => a = 80)) {} (ls ++ [.request 9000 ['/', 'a', '/'] (.served 0)]) t ∧ .register 0 ∈ ls ∧ .listen 0 ∈ ls ∧
    ∀ j, .start j ∈ ls → j = 0 :=
  ⟨[.start 0, .register 0, .listen 0], _, .cons (.start _ 0 rfl (by simp)) (.cons (.register _ 0 rfl (by simp) (by simp) rfl)
    (.cons (.listen _ 0 rfl (by simp) (by simp) (by simp)) (.cons (.request _ 9000 ['/', 'a', '/'] rfl (by simp) rfl) (.nil _)))), by simp, by simp, by simp⟩

def registersWs (i : Nat) : WsMux.Label → Bool
  | .register j => j == i
  | _ => false

def listensWs (i : Nat) : WsMux.Label → Bool
  | .listen j => j == i
  | _ => false

/-- The goroutines of each server, and that the process lives. -/
structure LiveWs (ls : List WsMux.Label) (s : WsMux.State) : Prop where
  alive : s.dead = false ↔ ∀ i, .panic i ∉ ls
  regs : ∀ i, s.reg.count i + ls.countP (registersWs i) = ls.countP (startsWs i)
  liss : ∀ i, s.lis.count i + ls.countP (listensWs i) = ls.countP (registersWs i)

theorem liveWs {conf : Nat → Conf} {taken : Nat → Prop} {ls : List WsMux.Label} {t : WsMux.State} (h : Steps (WsMux.Step conf taken) {} ls t) : LiveWs ls t := by
  refine h.invariant_trace (P := LiveWs) ?_ ⟨by simp, by simp, by simp⟩
  rintro ls s l t ⟨h1, h2, h3⟩ hs
  have e : ∀ (a : Nat) (l : List Nat), a ∈ l → ∀ i, (l.erase a).count i + (if a = i then 1 else 0) = l.count i := by
    intro a l hm i
    have := (List.perm_cons_erase hm).count_eq i
    rw [this, List.count_cons]; simp
  cases hs with
  | start i hd hp => exact ⟨by simpa using h1, fun j => by simp [List.countP_append, List.countP_cons, startsWs, registersWs, List.count_cons, ← h2 j]; omega, fun j => by simp [List.countP_append, listensWs, registersWs, h3]⟩
  | stop i hd => exact ⟨by simpa using h1, fun j => by simp [List.countP_append, startsWs, registersWs, h2], fun j => by simp [List.countP_append, listensWs, registersWs, h3]⟩
  | register i hd hr hp hn =>
    refine ⟨by simpa using h1, fun j => ?_, fun j => ?_⟩
    · have := e i s.reg hr j
      simp [List.countP_append, List.countP_cons, startsWs, registersWs, ← h2 j]; omega
    · simp [List.countP_append, List.countP_cons, listensWs, registersWs, List.count_cons, ← h3 j]; omega
  | listen i hd hl hb ht =>
    refine ⟨by simpa using h1, fun j => by simp [List.countP_append, startsWs, registersWs, h2], fun j => ?_⟩
    have := e i s.lis hl j
    simp [List.countP_append, List.countP_cons, listensWs, registersWs, ← h3 j]; omega
  | registerPanic i => exact ⟨⟨nofun, fun hc => absurd (hc i) (by simp)⟩, fun j => by simp [List.countP_append, startsWs, registersWs, h2], fun j => by simp [List.countP_append, listensWs, registersWs, h3]⟩
  | listenPanic i => exact ⟨⟨nofun, fun hc => absurd (hc i) (by simp)⟩, fun j => by simp [List.countP_append, startsWs, registersWs, h2], fun j => by simp [List.countP_append, listensWs, registersWs, h3]⟩
  | request a p => exact ⟨by simpa using h1, fun j => by simp [List.countP_append, startsWs, registersWs, h2], fun j => by simp [List.countP_append, listensWs, registersWs, h3]⟩

/-- **C94**, why the process ends: a server is started with an empty path or with one that is registered, or its address is in use; and nothing happens afterwards. -/
theorem C94_panics (conf : Nat → Conf) (taken : Nat → Prop) (ls l2 : List WsMux.Label) (t : WsMux.State) (i : Nat) (h : Steps (WsMux.Step conf taken) {} (ls ++ .panic i :: l2) t) :
    l2 = [] ∧ ((.start i ∈ ls ∧ ((conf i).path = [] ∨ ∃ j, .register j ∈ ls ∧ (conf j).path = (conf i).path)) ∨
      (.register i ∈ ls ∧ (taken (conf i).addr ∨ ∃ j, .listen j ∈ ls ∧ (conf j).addr = (conf i).addr))) := by
  obtain ⟨s, h1, h2⟩ := Steps.split h
  cases h2 with
  | cons h2 h3 =>
  have hi := liveWs h1
  refine ⟨?_, ?_⟩
  · have hdead := (liveWs (h1.snoc h2)).alive
    cases h3 with
    | nil => rfl
    | cons h3 _ =>
      refine absurd (show _ = false from ?_) (fun hc => hdead.1 hc i (by simp))
      cases h3 <;> assumption
  · cases h2 with
    | registerPanic _ hd hr hp =>
      refine .inl ⟨?_, ?_⟩
      · have := hi.regs i
        have : 0 < s.reg.count i := List.count_pos_iff.2 hr
        obtain ⟨l, hl, he⟩ := List.countP_pos_iff.1 (show 0 < ls.countP (startsWs i) by omega)
        unfold startsWs at he
        split at he
        · rw [show i = _ from (by simpa using he : _ = i).symm]; exact hl
        · cases he
      · rcases hp with hp | hp
        · exact .inl hp
        · obtain ⟨j, hj⟩ := Option.isSome_iff_exists.1 hp
          have := (muxInv h1).entries (conf i).path j
          exact .inr ⟨j, (this.1 (lookup_mem hj)).2, (this.1 (lookup_mem hj)).1.symm⟩
    | listenPanic _ hd hr hp =>
      refine .inr ⟨?_, ?_⟩
      · have := hi.liss i
        have : 0 < s.lis.count i := List.count_pos_iff.2 hr
        obtain ⟨l, hl, he⟩ := List.countP_pos_iff.1 (show 0 < ls.countP (registersWs i) by omega)
        unfold registersWs at he
        split at he
        · rw [show i = _ from (by simpa using he : _ = i).symm]; exact hl
        · cases he
      · rcases hp with hp | hp
        · obtain ⟨j, hj, e⟩ := (bound_listen h1 _).1 hp
          exact .inr ⟨j, hj, e⟩
        · exact .inl hp

/-- **C94**, what can happen as long as there was no panic: every request at an address listened at has an answer, and every server started goes on to register and to listen, or panics for one of the reasons above. -/
theorem C94_goes_on (conf : Nat → Conf) (taken : Nat → Prop) (ls : List WsMux.Label) (t : WsMux.State) (h : Steps (WsMux.Step conf taken) {} ls t) (hp : ∀ i, .panic i ∉ ls) :
    (∀ j p, .listen j ∈ ls → p.head? = some '/' → ∃ r t', WsMux.Step conf taken t (.request (conf j).addr p r) t') ∧
    ∀ i, (ls.countP (registersWs i) < ls.countP (startsWs i) → ∃ t', WsMux.Step conf taken t (.register i) t' ∨ WsMux.Step conf taken t (.panic i) t') ∧
      (ls.countP (listensWs i) < ls.countP (registersWs i) → ∃ t', WsMux.Step conf taken t (.listen i) t' ∨ WsMux.Step conf taken t (.panic i) t') := by
  have hi := liveWs h
  have hd := hi.alive.2 hp
  refine ⟨fun j p hj he => ⟨_, _, .request t _ p hd ((bound_listen h _).2 ⟨j, hj, rfl⟩) he⟩, fun i => ⟨fun hlt => ?_, fun hlt => ?_⟩⟩
  · have := hi.regs i
    have hm : i ∈ t.reg := List.count_pos_iff.1 (by omega)
    by_cases h0 : (conf i).path = []
    · exact ⟨_, .inr (.registerPanic t i hd hm (.inl h0))⟩
    cases hl : t.mux.lookup (conf i).path with
    | none => exact ⟨_, .inl (.register t i hd hm h0 hl)⟩
    | some j => exact ⟨_, .inr (.registerPanic t i hd hm (.inr (by simp [hl])))⟩
  · have := hi.liss i
    have hm : i ∈ t.lis := List.count_pos_iff.1 (by omega)
    by_cases h0 : (conf i).addr ∈ t.bound
    · exact ⟨_, .inr (.listenPanic t i hd hm (.inl h0))⟩
    by_cases h1 : taken (conf i).addr
    · exact ⟨_, .inr (.listenPanic t i hd hm (.inr h1))⟩
    · exact ⟨_, .inl (.listen t i hd hm h0 h1)⟩

/-- One server started, one about to register with the same path. -/
example : ∃ t, Steps (WsMux.Step (fun i => ⟨9000 + i, ['/']⟩) (fun _ => False)) {} [.start 0, .register 0, .listen 0, .start 1] t ∧ (WsMux.Step (fun i => ⟨9000 + i, ['/']⟩) (fun _ => False)) t (.panic 1) { t with dead := true } :=
  ⟨_, .cons (.start _ 0 rfl (by simp)) (.cons (.register _ 0 rfl (by simp) (by simp) rfl) (.cons (.listen _ 0 rfl (by simp) (by simp) nofun) (.cons (.start _ 1 rfl (by simp)) (.nil _)))),
    .registerPanic _ 1 rfl (by simp) (.inr rfl)⟩

end Zinx.Props
