import Verif.Lemmas.Router

/-! # C22 and C23: route registration -/

namespace Zinx.Props

open Zinx Zinx.Router

variable {H : Type}

/-- **C22 (plain route).** If message `i` is first registered by an `AddHandler` call, its handlers are the global middleware registered
before that call, then its own, whatever is registered later and however the runtime grows slices. -/
theorem C22_plain_route (spare : Nat → Nat) (pre post : List (Op H)) (i : UInt32) (hs : List (Option H))
    (hfirst : ∀ o ∈ pre, ¬ names i o) (hsens : Sensible (pre ++ .addHandler i hs :: post)) :
    ((State.new H).run spare (pre ++ .addHandler i hs :: post)).getHandlers i = some (usedBy pre ++ hs) := by
  rw [getHandlers_run spare _ hsens, routeOf_mid _ _ _ _ _ hfirst]
  simp [routeOf, registers]

/-- **C22 (group route).** If message `i` is first registered through group `g`, made by the `g`-th `Group` call with range `lo..hi` and
middleware `init`, and `i` is in the range, its handlers are the global middleware registered before, then the group's middleware registered
before, then its own. -/
theorem C22_group_route (spare : Nat → Nat) (pre post : List (Op H)) (g : Nat) (i lo hi : UInt32) (init hs : List (Option H))
    (hfirst : ∀ o ∈ pre, ¬ names i o) (hsens : Sensible (pre ++ .groupAdd g i hs :: post))
    (hg : (groupCalls pre)[g]? = some (lo, hi, init)) (h1 : lo ≤ i) (h2 : i ≤ hi) :
    ((State.new H).run spare (pre ++ .groupAdd g i hs :: post)).getHandlers i =
      some (usedBy pre ++ (init ++ groupUsedBy g pre) ++ hs) := by
  rw [getHandlers_run spare _ hsens, routeOf_mid _ _ _ _ _ hfirst]
  simp [routeOf, registers, hg, h1, h2]

/-- **C22/C23 (no route).** A message nobody registered has no handlers. -/
theorem C22_no_route (spare : Nat → Nat) (ops : List (Op H)) (i : UInt32) (h : ∀ o ∈ ops, ¬ names i o) (hsens : Sensible ops) :
    ((State.new H).run spare ops).getHandlers i = none := by
  rw [getHandlers_run spare _ hsens, routeOf_none_of_not_names _ _ _ h]

/-- **C23 (slices, stable).** Once a message has handlers, no further sequence of calls changes them: not registrations of the same
message, not of others, not middleware. -/
theorem C23_stable (spare : Nat → Nat) (ops more : List (Op H)) (i : UInt32) (hs : List (Option H)) (hsens : Sensible (ops ++ more))
    (h : ((State.new H).run spare ops).getHandlers i = some hs) :
    ((State.new H).run spare (ops ++ more)).getHandlers i = some hs := by
  revert hsens
  refine snoc_induction (P := fun more => Sensible (ops ++ more) → ((State.new H).run spare (ops ++ more)).getHandlers i = some hs) ?_ ?_ more
  · intro _; rw [List.append_nil]; exact h
  · intro l o ih hs'
    rw [← List.append_assoc] at hs' ⊢
    have := ih (sensible_snoc hs').1
    rw [getHandlers_run spare _ (sensible_snoc hs').1] at this
    rw [getHandlers_run spare _ hs', routeOf_snoc, this]

/-- **C23 (slices, refused).** Registering a message that already has handlers panics, directly or through a group. -/
theorem C23_duplicate_refused (spare : Nat → Nat) (ops : List (Op H)) (i : UInt32) (hsens : Sensible ops)
    (h : ((State.new H).run spare ops).getHandlers i ≠ none) (hs' : List (Option H)) (g : Nat) :
    (∃ e, ((State.new H).run spare ops).step spare (.addHandler i hs') = .error e) ∧
    (∃ e, ((State.new H).run spare ops).step spare (.groupAdd g i hs') = .error e) := by
  rw [getHandlers_run spare _ hsens] at h
  have r := rep_run spare ops hsens
  generalize (State.new H).run spare ops = st at r
  have a1 := r.addHandler spare i hs'
  have a2 := r.groupAdd spare g i hs'
  constructor
  · simp only [State.step]
    cases hst : st.addHandler spare i hs' with
    | error e => exact ⟨e, rfl⟩
    | ok st' => rw [hst] at a1; exact absurd a1.1 h
  · simp only [State.step]
    cases hst : st.groupAdd spare g i hs' with
    | error e => exact ⟨e, rfl⟩
    | ok st' => rw [hst] at a2; obtain ⟨_, _, _, _, _, _, h3, _⟩ := a2; exact absurd h3 h

/-- **C23 (slices, accepted).** Registering a message without handlers succeeds; through a group exactly if it is in the range. -/
theorem C23_new_accepted (spare : Nat → Nat) (ops : List (Op H)) (i lo hi : UInt32) (hs init : List (Option H)) (g : Nat)
    (hsens : Sensible ops) (h : ((State.new H).run spare ops).getHandlers i = none) (hg : (groupCalls ops)[g]? = some (lo, hi, init)) :
    (∃ st', ((State.new H).run spare ops).step spare (.addHandler i hs) = .ok st') ∧
    ((∃ st', ((State.new H).run spare ops).step spare (.groupAdd g i hs) = .ok st') ↔ lo ≤ i ∧ i ≤ hi) := by
  rw [getHandlers_run spare _ hsens] at h
  have r := rep_run spare ops hsens
  generalize (State.new H).run spare ops = st at r
  have a1 := r.addHandler spare i hs
  have a2 := r.groupAdd spare g i hs
  have hg' : (absOf ops).groups[g]? = some (lo, hi, init ++ groupUsedBy g ops) := by rw [absOf_groups_get, hg]; rfl
  constructor
  · simp only [State.step]
    cases hst : st.addHandler spare i hs with
    | ok st' => exact ⟨st', rfl⟩
    | error e => rw [hst] at a1; exact absurd h a1
  · simp only [State.step]
    cases hst : st.groupAdd spare g i hs with
    | ok st' =>
      rw [hst] at a2
      obtain ⟨lo', hi', l, h1, h2, h3, _⟩ := a2
      rw [hg'] at h1
      simp only [Option.some.injEq, Prod.mk.injEq] at h1
      obtain ⟨rfl, rfl, _⟩ := h1
      exact ⟨fun _ => ⟨h2, h3⟩, fun _ => ⟨st', rfl⟩⟩
    | error e =>
      rw [hst] at a2
      constructor
      · rintro ⟨st', h'⟩; simp at h'
      · rintro ⟨h1, h2⟩; exact absurd h (a2 lo hi _ hg' h1 h2)

/-- **C23 (router mode).** After any sequence of `AddRouter` calls each message has the router of the first call for it, and a call panics
exactly if the message already had one. -/
theorem C23_router_mode {R : Type} (l : List (UInt32 × R)) (i : UInt32) :
    addRouters (fun _ => none) l i = (l.find? (fun x => x.1 = i)).map (·.2) ∧
    ∀ r, ((∃ e, addRouter (addRouters (fun _ => none) l) i r = .error e) ↔ ∃ r', (i, r') ∈ l) := by
  have gen : ∀ (l : List (UInt32 × R)) (apis : UInt32 → Option R) (i : UInt32),
      addRouters apis l i = (apis i).or ((l.find? (fun x => x.1 = i)).map (·.2)) := by
    intro l
    induction l with
    | nil => intro apis i; simp [addRouters]
    | cons x xs ih =>
      intro apis i
      obtain ⟨j, r⟩ := x
      simp only [addRouters, addRouter]
      cases hj : apis j with
      | some y =>
        simp only
        rw [ih]
        by_cases hji : j = i
        · subst hji; rw [hj]; rfl
        · simp [hji]
      | none =>
        simp only
        rw [ih]
        by_cases hji : j = i
        · subst hji; simp [hj]
        · simp [hji, Ne.symm hji]
  have h1 := gen l (fun _ => none) i
  simp only [Option.none_or] at h1
  refine ⟨h1, fun r => ?_⟩
  unfold addRouter
  rw [h1]
  cases hf : l.find? (fun x => x.1 = i) with
  | none =>
    simp only [Option.map_none]
    constructor
    · rintro ⟨e, h⟩; simp at h
    · rintro ⟨r', h⟩
      rw [List.find?_eq_none] at hf
      exact absurd (decide_eq_true rfl) (hf _ h)
  | some x =>
    simp only [Option.map_some]
    constructor
    · intro _
      have h := List.find?_some hf
      have hm := List.mem_of_find?_eq_some hf
      simp only [decide_eq_true_eq] at h
      exact ⟨x.2, by rw [← h]; exact hm⟩
    · intro _; exact ⟨_, rfl⟩

/-- **C23 (mode).** Slice registrations panic on a server in router mode and conversely. -/
theorem C23_mode (serverSlices callSlices : Bool) :
    (modeAllows serverSlices callSlices = .ok ()) ↔ serverSlices = callSlices := by
  cases serverSlices <;> cases callSlices <;> simp [modeAllows]

/-- A history with global and group middleware, a refused duplicate, an out-of-range call and later registrations. -/
def routerExample : List (Op Nat) :=
  [.use [some 1], .group 10 20 [some 2], .addHandler 5 [some 3], .groupUse 0 [some 4], .groupAdd 0 15 [some 5, some 6], .use [some 7],
   .groupUse 0 [some 8], .groupAdd 0 15 [some 9], .groupAdd 0 30 [some 9], .addHandler 5 [some 10], .groupAdd 0 16 [some 11]]

example : Sensible routerExample := by
  intro pre o post h
  have hm : o ∈ routerExample := by rw [h]; simp
  rcases pre with _ | ⟨a, _ | ⟨b, pre⟩⟩
  · simp [routerExample] at h; rw [← h.1]; trivial
  · simp [routerExample] at h; rw [← h.2.1]; trivial
  · simp only [routerExample, List.cons_append, List.cons.injEq] at h
    have hlen : 0 < (groupCalls (a :: b :: pre)).length := by rw [← h.1, ← h.2.1]; simp [groupCalls]
    simp only [routerExample, List.mem_cons, List.not_mem_nil, or_false] at hm
    rcases hm with h | h | h | h | h | h | h | h | h | h | h <;> subst h <;> first | trivial | exact hlen

example : ((State.new Nat).run (fun n => n) routerExample).getHandlers 15 = some [some 1, some 2, some 4, some 5, some 6] ∧
    ((State.new Nat).run (fun n => n) routerExample).getHandlers 16 = some [some 1, some 7, some 2, some 4, some 8, some 11] := by
  constructor <;> decide

end Zinx.Props
