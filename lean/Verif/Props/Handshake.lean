import Verif.Model.Handshake

/-! # C89: WebSocket handshakes -/

namespace Zinx.Props

open Zinx.Handshake

variable {P : Type} [DecidableEq P]

/-- The request passes authentication. -/
def passes (auth : Option (Request P → Bool)) (r : Request P) : Prop := ∀ f, auth = some f → f r = true

/-- What may be answered to a request. -/
def answerFits (auth : Option (Request P → Bool)) (r : Request P) : Outcome P → Prop
  | .full => True
  | .unauthorized => ¬ passes auth r
  | .failed => passes auth r ∧ r.proper = false
  | .upgraded p => passes auth r ∧ r.proper = true ∧ ∀ q, p = some q → q ∈ r.offered

/-- What has happened in a handshake. -/
def handshakePc (ls : List (Handshake.Label P)) (i : Nat) (req : Option (Request P)) (ans : Option (Outcome P)) (conn : Nat) : Prop :=
  (∀ r, .request i r ∈ ls ↔ req = some r) ∧ (∀ o, ls.count (.answer i o) = if ans = some o then 1 else 0) ∧ ls.count (.connect i) = conn

def handshakeAt (auth : Option (Request P → Bool)) (ls : List (Handshake.Label P)) (i : Nat) : Pc P → Prop
  | .idle => handshakePc ls i none none 0
  | .begun r => handshakePc ls i (some r) none 0 ∧ (r.header = false → r.offered = [])
  | .counted r => handshakePc ls i (some r) none 0 ∧ (r.header = false → r.offered = [])
  | .authorized r => handshakePc ls i (some r) none 0 ∧ (r.header = false → r.offered = []) ∧ passes auth r
  | .set r => handshakePc ls i (some r) none 0 ∧ passes auth r
  | .answered r o => handshakePc ls i (some r) (some o) 0 ∧ answerFits auth r o
  | .ended r o => handshakePc ls i (some r) (some o) 1 ∧ answerFits auth r o ∧ ∃ p, o = .upgraded p

theorem select_offered {subs offered : List P} {q : P} (h : select subs offered = some q) : q ∈ offered := by
  have := List.find?_some h
  simpa using this

/-- The handshake a label belongs to. -/
def handshakeOf : Handshake.Label P → Nat
  | .request i _ | .count i | .auth i | .setSubs i | .answer i _ | .connect i => i

theorem handshakePc_keep {ls : List (Handshake.Label P)} {j : Nat} {req : Option (Request P)} {ans : Option (Outcome P)} {conn : Nat} {l : Handshake.Label P} (h : handshakePc ls j req ans conn)
    (hl : handshakeOf l ≠ j ∨ l = .count j ∨ l = .auth j ∨ l = .setSubs j) : handshakePc (ls ++ [l]) j req ans conn := by
  obtain ⟨h1, h2, h3⟩ := h
  refine ⟨fun r => ?_, fun o => ?_, ?_⟩
  · rw [List.mem_append, h1 r]
    constructor
    · rintro (h | h)
      · exact h
      · cases List.mem_singleton.1 h; simp [handshakeOf] at hl
    · exact .inl
  · rw [List.count_append, h2 o, List.count_singleton]
    have : (l == .answer j o) = false := by rw [beq_eq_false_iff_ne]; rintro rfl; simp [handshakeOf] at hl
    rw [this]; simp
  · rw [List.count_append, h3, List.count_singleton]
    have : (l == .connect j) = false := by rw [beq_eq_false_iff_ne]; rintro rfl; simp [handshakeOf] at hl
    rw [this]; simp

theorem handshakeAt_keep {auth : Option (Request P → Bool)} {ls : List (Handshake.Label P)} {j : Nat} {l : Handshake.Label P} {p : Pc P} (h : handshakeAt auth ls j p) (hl : handshakeOf l ≠ j) :
    handshakeAt auth (ls ++ [l]) j p := by
  cases p
  · exact handshakePc_keep h (.inl hl)
  all_goals exact ⟨handshakePc_keep h.1 (.inl hl), h.2⟩

theorem handshakePc_answer {ls : List (Handshake.Label P)} {j : Nat} {req : Option (Request P)} {o : Outcome P} (h : handshakePc ls j req none 0) :
    handshakePc (ls ++ [.answer j o]) j req (some o) 0 := by
  obtain ⟨h1, h2, h3⟩ := h
  refine ⟨fun r => by simp [h1 r], fun o' => ?_, by simp [h3]⟩
  have := h2 o'
  simp only [List.count_append, List.count_singleton, this]
  by_cases e : o = o' <;> simp [e]

theorem handshake_step {auth : Option (Request P → Bool)} {ls : List (Handshake.Label P)} {s t : Handshake.State P} {l : Handshake.Label P} (h : ∀ i, handshakeAt auth ls i (s.pc i))
    (hs : Handshake.Step auth s l t) : ∀ i, handshakeAt auth (ls ++ [l]) i (t.pc i) := by
  intro j
  have hj := h j
  by_cases hl : handshakeOf l = j
  · cases hs <;> simp only [handshakeOf] at hl <;> subst hl <;> simp only [State.goto, if_true]
    case request i r hp hw =>
      rw [hp] at hj
      obtain ⟨h1, h2, h3⟩ := hj
      refine ⟨⟨fun r' => ?_, fun o => ?_, ?_⟩, hw⟩
      · have := h1 r'
        simp only [List.mem_append, this, List.mem_singleton, Handshake.Label.request.injEq, true_and, Option.some.injEq, reduceCtorEq, false_or]
        exact eq_comm
      · simp [h2 o]
      · simp [h3]
    case full i r hp => rw [hp] at hj; exact ⟨handshakePc_answer hj.1, trivial⟩
    case count i r hp => rw [hp] at hj; exact ⟨handshakePc_keep hj.1 (by simp), hj.2⟩
    case noAuth i r hp ha => rw [hp] at hj; exact ⟨handshakePc_keep hj.1 (by simp), hj.2, fun f hf => by rw [ha] at hf; cases hf⟩
    case auth i r f hp ha hf => rw [hp] at hj; exact ⟨handshakePc_keep hj.1 (by simp), hj.2, fun g hg => by rw [ha] at hg; cases hg; exact hf⟩
    case denied i r f hp ha hf => rw [hp] at hj; exact ⟨handshakePc_answer hj.1, fun hn => by have := hn f ha; rw [hf] at this; cases this⟩
    case setSubs i r hp => rw [hp] at hj; exact ⟨handshakePc_keep hj.1 (by simp), hj.2.2⟩
    case upgrade i r hp hr => rw [hp] at hj; exact ⟨handshakePc_answer hj.1, hj.2, hr, fun q hq => select_offered hq⟩
    case failed i r hp hr => rw [hp] at hj; exact ⟨handshakePc_answer hj.1, hj.2, hr⟩
    case connect i r p hp =>
      rw [hp] at hj
      obtain ⟨⟨h1, h2, h3⟩, h4⟩ := hj
      exact ⟨⟨fun r' => by simp [h1 r'], fun o => by simp [h2 o], by simp [h3]⟩, h4, p, rfl⟩
  · have : t.pc j = s.pc j := by cases hs <;> simp only [handshakeOf] at hl <;> simp [State.goto, Ne.symm hl]
    rw [this]
    exact handshakeAt_keep hj hl

theorem handshake_inv {auth : Option (Request P → Bool)} {ls : List (Handshake.Label P)} {t : Handshake.State P} (h : Steps (Handshake.Step auth) {} ls t) : ∀ i, handshakeAt auth ls i (t.pc i) :=
  h.invariant_trace (P := fun ls s => ∀ i, handshakeAt auth ls i (s.pc i)) (fun _ _ _ _ => handshake_step) (fun i => by simp [handshakeAt, handshakePc])

/-- **C89, all handshakes.** However many handshakes run at the same time: each is answered at most once and gets at most one connection, which follows an upgrade; the answer fits the request (401
only if it fails authentication; an upgrade or 500 only if it passes; an upgrade only of a proper handshake); and a subprotocol that is selected is one that this client offered. -/
theorem C89_answers (auth : Option (Request P → Bool)) (ls : List (Handshake.Label P)) (t : Handshake.State P) (h : Steps (Handshake.Step auth) {} ls t) (i : Nat) :
    (∀ o o', .answer i o ∈ ls → .answer i o' ∈ ls → o = o') ∧
    (∀ o, ls.count (.answer i o) ≤ 1) ∧
    ls.count (.connect i) ≤ 1 ∧
    (∀ a b, ls = a ++ .connect i :: b → ∃ p, .answer i (.upgraded p) ∈ a) ∧
    (∀ o, .answer i o ∈ ls → ∃ r, .request i r ∈ ls ∧ answerFits auth r o) := by
  have key : ∀ {ls t}, Steps (Handshake.Step auth) {} ls t → ∃ req ans conn, handshakePc ls i req ans conn ∧ conn ≤ 1 ∧ ∀ o, ans = some o → ∃ r, req = some r ∧ answerFits auth r o := by
    intro ls t h
    have hi := handshake_inv h i
    cases hp : t.pc i <;> rw [hp] at hi
    · exact ⟨_, _, _, hi, by simp, by simp⟩
    · exact ⟨_, _, _, hi.1, by simp, by simp⟩
    · exact ⟨_, _, _, hi.1, by simp, by simp⟩
    · exact ⟨_, _, _, hi.1, by simp, by simp⟩
    · exact ⟨_, _, _, hi.1, by simp, by simp⟩
    · exact ⟨_, _, _, hi.1, by simp, by simpa using hi.2⟩
    · exact ⟨_, _, _, hi.1, by simp, by simpa using hi.2.1⟩
  obtain ⟨req, ans, conn, ⟨h1, h2, h3⟩, h4, h5⟩ := key h
  have h6 : ∀ o, .answer i o ∈ ls → ans = some o := by
    intro o ho
    have := h2 o
    have h7 := List.count_pos_iff.2 ho
    by_cases e : ans = some o
    · exact e
    · rw [if_neg e] at this; omega
  refine ⟨fun o o' ho ho' => ?_, fun o => ?_, by omega, ?_, fun o ho => ?_⟩
  · have := h6 o ho
    rw [h6 o' ho'] at this
    simpa using this.symm
  · rw [h2 o]; split <;> simp
  · rintro a b rfl
    obtain ⟨u, hu, hr⟩ := h.split
    have hi := handshake_inv hu i
    cases hr with
    | cons hs _ =>
      cases hs with
      | connect i r p hp =>
        rw [hp] at hi
        have := hi.1.2.1 (.upgraded p)
        exact ⟨p, List.count_pos_iff.1 (by rw [this]; simp)⟩
  · obtain ⟨r, hr, hf⟩ := h5 o (h6 o ho)
    exact ⟨r, (h1 r).2 hr, hf⟩

theorem handshake_subs {auth : Option (Request P → Bool)} {s t : Handshake.State P} {ls : List (Handshake.Label P)} (h : Steps (Handshake.Step auth) s ls t) (hn : ∀ j, .setSubs j ∉ ls) :
    t.subs = s.subs := by
  induction h with
  | nil => rfl
  | cons hs _ ih =>
    rw [ih (fun j hj => hn j (List.mem_cons_of_mem _ hj))]
    cases hs <;> first | rfl | exact absurd List.mem_cons_self (hn _)

theorem select_self (xs : List P) : select xs xs = xs.head? := by
  cases xs <;> simp [select]

/-- **C89, subprotocols, in part.** If no other handshake sets the list between the moment a handshake sets it and its upgrade, the client gets the first subprotocol it offered, and none if it
offered none. -/
theorem C89_partial (auth : Option (Request P → Bool)) (a b c : List (Handshake.Label P)) (t : Handshake.State P) (i : Nat) (p : Option P) (r : Request P)
    (h : Steps (Handshake.Step auth) {} (a ++ .setSubs i :: (b ++ .answer i (.upgraded p) :: c)) t) (hb : ∀ j, .setSubs j ∉ b) (hr : .request i r ∈ a) : p = r.offered.head? := by
  obtain ⟨u, hu, h2⟩ := h.split
  cases h2 with
  | cons hs h3 =>
    obtain ⟨v, hv, h4⟩ := h3.split
    have hi := handshake_inv hu i
    have hv' := handshake_inv ((hu.snoc hs).append hv) i
    have hsub := handshake_subs hv hb
    cases hs with
    | setSubs i r0 hp =>
      rw [hp] at hi
      have e0 : r0 = r := by simpa using (hi.1.1 r).1 hr
      subst e0
      cases h4 with
      | cons hs _ =>
        cases hs with
        | upgrade i r1 hp1 _ =>
          rw [hp1] at hv'
          have e1 : r1 = r0 := by simpa using (hv'.1.1 r0).1 (by simp [hr])
          subst e1
          rw [hsub]
          show select (if r1.header = true then _ else _) _ = _
          cases hh : r1.header with
          | true => exact select_self _
          | false =>
            rw [hi.2.1 hh]
            simp [select]

theorem handshake_upgrade {auth : Option (Request P → Bool)} (s : Handshake.State P) (i : Nat) (r : Request P) (p : Option P) (h1 : s.pc i = .set r) (h2 : r.proper = true)
    (h3 : select s.subs r.offered = p) : Handshake.Step auth s (.answer i (.upgraded p)) (s.goto i (.answered r (.upgraded p))) := by
  subst h3
  exact .upgrade s i r h1 h2

/-- A handshake that is denied, then two one after the other. -/
example : ∃ a b c t, Steps (Handshake.Step (P := Nat) (some fun r => r.offered != [9])) {} (a ++ .setSubs 1 :: (b ++ .answer 1 (.upgraded (some 5)) :: c)) t ∧ (∀ j, .setSubs j ∉ b) ∧
    .request 1 ⟨true, [5, 6], true⟩ ∈ a ∧ .answer 0 .unauthorized ∈ a ∧ .connect 1 ∈ c :=
  ⟨[.request 0 ⟨true, [9], true⟩, .request 1 ⟨true, [5, 6], true⟩, .count 0, .answer 0 .unauthorized, .count 1, .auth 1], [.request 2 ⟨false, [], true⟩, .count 2], [.connect 1], _,
    .cons (.request _ 0 _ rfl nofun) (.cons (.request _ 1 _ rfl nofun) (.cons (.count _ 0 _ rfl) (.cons (.denied _ 0 _ _ rfl rfl rfl) (.cons (.count _ 1 _ rfl) (.cons (.auth _ 1 _ _ rfl rfl rfl)
    (.cons (.setSubs _ 1 _ rfl) (.cons (.request _ 2 _ rfl (fun _ => rfl)) (.cons (.count _ 2 _ rfl) (.cons (handshake_upgrade _ 1 _ _ rfl rfl rfl) (.cons (.connect _ 1 _ _ rfl) (.nil _))))))))))), by simp, by simp, by simp, by simp⟩

/-- **C89 is false of the code:** two clients offer one subprotocol each at the same time; the list set for the second replaces that of the first, who gets a connection without the subprotocol. -/
theorem C89_refuted : ∃ ls t, Steps (Handshake.Step (P := Nat) none) {} ls t ∧ .request 0 ⟨true, [1], true⟩ ∈ ls ∧ .request 1 ⟨true, [2], true⟩ ∈ ls ∧ .answer 0 (.upgraded none) ∈ ls ∧
    .connect 0 ∈ ls ∧ (∀ i r, .request i r ∈ ls → i ≤ 1) :=
  ⟨_, _, .cons (.request _ 0 ⟨true, [1], true⟩ rfl nofun) (.cons (.request _ 1 ⟨true, [2], true⟩ rfl nofun) (.cons (.count _ 0 _ rfl) (.cons (.noAuth _ 0 _ rfl rfl) (.cons (.setSubs _ 0 _ rfl)
    (.cons (.count _ 1 _ rfl) (.cons (.noAuth _ 1 _ rfl rfl) (.cons (.setSubs _ 1 _ rfl) (.cons (.upgrade _ 0 _ rfl rfl) (.cons (.connect _ 0 _ _ rfl) (.nil _)))))))))),
    by simp, by simp, by simp; exact rfl, by simp, by simp; omega⟩

end Zinx.Props
