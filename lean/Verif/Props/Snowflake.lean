import Verif.Lemmas.Snowflake

/-! # C48 and C49: snowflake IDs -/

namespace Zinx.Props

open Zinx Zinx.Snowflake

/-- **C48 (increasing).** For every generator and every sequence of clock readings from 1970 until 41 bits of milliseconds are used up (readings may
jump back and forth), the IDs returned by successive calls strictly increase and are non-negative. -/
theorem C48_increasing {k : BitVec 64} {w w' : Worker} (hk : newIDWorker k = some w) {clock rest : List Int}
    (hc : ∀ ns ∈ clock, 0 ≤ ns ∧ ns < 2 ^ 41 * 1000000) {n : Nat} {rs : List Result} (h : calls w clock n = some (rs, w', rest)) :
    (idsOf rs).Pairwise (fun a b => a.toInt < b.toInt) ∧ ∀ i ∈ idsOf rs, 0 ≤ i.toInt := by
  have o := ((newIDWorker_spec k).1 w hk).1
  obtain ⟨_, _, _, _, pw, al⟩ := Snowflake.calls_spec o hc h
  exact ⟨pw, fun i hi => (al i hi).2.2.1⟩

/-- **C48 (clock moved back).** After any calls of which the last one that gave an ID gave `i`, a call whose first clock reading is in an earlier
millisecond than the one in `i` returns the error; any other call returns an ID (if it returns). -/
theorem C48_backwards {k : BitVec 64} {w w' w'' : Worker} (hk : newIDWorker k = some w) {clock rest rest' : List Int} {ns : Int}
    (hc : ∀ x ∈ clock, 0 ≤ x ∧ x < 2 ^ 41 * 1000000) {n : Nat} {rs : List Result} (h : calls w clock n = some (rs, w', ns :: rest))
    {i : BitVec 64} (hi : (idsOf rs).getLast? = some i) {r : Result} (hr : nextID w' (ns :: rest) = some (r, w'', rest')) :
    r = .backwards ↔ ns / 1000000 < i.toInt / 2 ^ 22 := by
  have o := ((newIDWorker_spec k).1 w hk).1
  -- the last timestamp is the one in the last ID
  have key : ∀ {n : Nat} {w w' : Worker} {clock rest : List Int} {rs : List Result}, Ok w → (∀ ns ∈ clock, InRange ns) →
      calls w clock n = some (rs, w', rest) → ∀ i, (idsOf rs).getLast? = some i → i.toInt = top w' := by
    intro n
    induction n with
    | zero =>
      intro w w' clock rest rs _ _ h i hi
      simp [calls] at h
      rw [h.1] at hi
      simp [idsOf] at hi
    | succ n ih =>
      intro w w' clock rest rs hw hc h i hi
      unfold calls at h
      cases h1 : nextID w clock with
      | none => rw [h1] at h; simp at h
      | some x =>
        obtain ⟨r, w1, c1⟩ := x
        rw [h1] at h
        dsimp only at h
        cases h2 : calls w1 c1 n with
        | none => rw [h2] at h; simp at h
        | some y =>
          obtain ⟨rs', w2, c2⟩ := y
          rw [h2] at h
          simp only [Option.some.injEq, Prod.mk.injEq] at h
          obtain ⟨e1, e2, e3⟩ := h
          subst e1 e2 e3
          obtain ⟨o1, _, m1, d1⟩ := nextID_spec hw hc h1
          have hc1 := fun ns hn => hc ns (m1 ns hn)
          cases hl : (idsOf rs').getLast? with
          | some j =>
            have : (idsOf (r :: rs')).getLast? = some j := by
              cases r with
              | backwards => exact hl
              | id i' =>
                show (i' :: idsOf rs').getLast? = some j
                rw [List.getLast?_cons, hl]; rfl
            rw [this] at hi
            cases hi
            exact ih o1 hc1 h2 _ hl
          | none =>
            have emp : idsOf rs' = [] := List.getLast?_eq_none_iff.mp hl
            -- no ID after this one: the state stays
            have stay : ∀ {n : Nat} {w w' : Worker} {clock rest : List Int} {rs : List Result}, Ok w → (∀ ns ∈ clock, InRange ns) →
                calls w clock n = some (rs, w', rest) → idsOf rs = [] → w' = w := by
              intro n
              induction n with
              | zero => intro w w' clock rest rs _ _ h _; simp [calls] at h; exact h.2.1.symm
              | succ n ih =>
                intro w w' clock rest rs hw hc h he
                unfold calls at h
                cases h1 : nextID w clock with
                | none => rw [h1] at h; simp at h
                | some x =>
                  obtain ⟨r, w1, c1⟩ := x
                  rw [h1] at h
                  dsimp only at h
                  cases h2 : calls w1 c1 n with
                  | none => rw [h2] at h; simp at h
                  | some y =>
                    obtain ⟨rs', w2, c2⟩ := y
                    rw [h2] at h
                    simp only [Option.some.injEq, Prod.mk.injEq] at h
                    obtain ⟨e1, e2, e3⟩ := h
                    subst e1 e2 e3
                    obtain ⟨o1, _, m1, d1⟩ := nextID_spec hw hc h1
                    rcases d1 with ⟨rfl, rfl, _⟩ | ⟨i, rfl, _⟩
                    · exact ih o1 (fun ns hn => hc ns (m1 ns hn)) h2 he
                    · exact absurd he (by simp [idsOf])
            rw [stay o1 hc1 h2 emp]
            rcases d1 with ⟨rfl, _⟩ | ⟨i', rfl, hi', _⟩
            · have : idsOf (Result.backwards :: rs') = [] := emp
              rw [this] at hi; simp at hi
            · have : idsOf (Result.id i' :: rs') = [i'] := by show i' :: idsOf rs' = [i']; rw [emp]
              rw [this] at hi
              simp at hi
              rw [← hi]; exact hi'
  obtain ⟨o', _, m, _⟩ := Snowflake.calls_spec o hc h
  have hc' := fun x hx => hc x (m x hx)
  have e := key o hc h i hi
  have tb : i.toInt / 2 ^ 22 = w'.lastTimestamp := by
    have a := o'.worker
    have b := o'.seq
    rw [e]; unfold top; omega
  have em : millis ns = ns / 1000000 := by
    unfold millis
    exact Int.tdiv_eq_ediv_of_nonneg (hc' ns List.mem_cons_self).1
  obtain ⟨_, _, _, d⟩ := nextID_spec o' hc' hr
  rw [tb, ← em]
  rcases d with ⟨rfl, _, ns', tail, ec, lt⟩ | ⟨j, rfl, _, _, _, ns', tail, ec, le⟩
  · simp at ec
    rw [ec.1]
    exact ⟨fun _ => lt, fun _ => rfl⟩
  · simp at ec
    rw [ec.1]
    exact ⟨fun c => by simp at c, fun c => by omega⟩

/-- A clock that stands still, jumps back and goes on. -/
example : ∃ w, newIDWorker 5 = some w ∧
    (calls w [7000000, 7999999, 6000000, 9000000] 4).map (·.1) = some [.id 29380608, .id 29380609, .backwards, .id 37769216] := by
  refine ⟨{ sequence := 0, lastTimestamp := -1, workerId := 5 }, by decide, by decide⟩

/-- **C49.** IDs of generators with different worker numbers differ; other worker numbers than 0..1023 are refused. -/
theorem C49_no_collision {k1 k2 : BitVec 64} (hk : k1 ≠ k2) {w1 w2 : Worker} (h1 : newIDWorker k1 = some w1) (h2 : newIDWorker k2 = some w2)
    {clock1 clock2 rest1 rest2 : List Int} (c1 : ∀ ns ∈ clock1, 0 ≤ ns ∧ ns < 2 ^ 41 * 1000000)
    (c2 : ∀ ns ∈ clock2, 0 ≤ ns ∧ ns < 2 ^ 41 * 1000000) {n1 n2 : Nat} {rs1 rs2 : List Result} {w1' w2' : Worker}
    (r1 : calls w1 clock1 n1 = some (rs1, w1', rest1)) (r2 : calls w2 clock2 n2 = some (rs2, w2', rest2)) :
    ∀ i ∈ idsOf rs1, i ∉ idsOf rs2 := by
  intro i hi1 hi2
  obtain ⟨o1, e1, _⟩ := (newIDWorker_spec k1).1 w1 h1
  obtain ⟨o2, e2, _⟩ := (newIDWorker_spec k2).1 w2 h2
  obtain ⟨_, _, _, _, _, a1⟩ := Snowflake.calls_spec o1 c1 r1
  obtain ⟨_, _, _, _, _, a2⟩ := Snowflake.calls_spec o2 c2 r2
  have x := (a1 i hi1).2.2.2
  have y := (a2 i hi2).2.2.2
  rw [e1] at x
  rw [e2] at y
  apply hk
  apply BitVec.eq_of_toNat_eq
  omega

/-- **C49 (range).** Exactly the worker numbers 0..1023 are accepted. -/
theorem C49_worker_range (k : BitVec 64) : newIDWorker k ≠ none ↔ 0 ≤ k.toInt ∧ k.toInt ≤ 1023 := by
  rw [ne_eq, (newIDWorker_spec k).2]
  omega

/-- Two generators in the same millisecond; the extreme worker numbers. -/
example : newIDWorker 0 ≠ none ∧ newIDWorker 1023 ≠ none ∧ newIDWorker 1024 = none ∧ newIDWorker (-1) = none := by decide

/-- Two generators that produce IDs in the same millisecond meet the hypotheses of C49. -/
example : ∃ w1 w2, newIDWorker 0 = some w1 ∧ newIDWorker 1 = some w2 ∧
    (calls w1 [7000000] 1).map (·.1) = some [.id 29360128] ∧ (calls w2 [7000000] 1).map (·.1) = some [.id 29364224] :=
  ⟨{ sequence := 0, lastTimestamp := -1, workerId := 0 }, { sequence := 0, lastTimestamp := -1, workerId := 1 }, by decide, by decide, by decide, by decide⟩

end Zinx.Props
