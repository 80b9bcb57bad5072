import Verif.Model.Snowflake

/-! # Facts about snowflake IDs -/

namespace Zinx.Snowflake

open Zinx

theorem sequenceMask_eq : sequenceMask = 4095 := by decide

theorem maxWorker_eq : maxWorker = 1023 := by decide

/-- A clock reading between 1970 and the exhaustion of 41 bits of milliseconds. -/
def InRange (ns : Int) : Prop := 0 ≤ ns ∧ ns < 2 ^ 41 * 1000000

theorem millis_range {ns : Int} (h : InRange ns) : 0 ≤ millis ns ∧ millis ns < 2 ^ 41 := by
  unfold millis
  obtain ⟨h1, h2⟩ := h
  rw [Int.tdiv_eq_ediv_of_nonneg h1]
  omega

theorem pack_toNat {t : Int} {w s : BitVec 64} (ht : 0 ≤ t ∧ t < 2 ^ 41) (hw : w.toNat < 1024) (hs : s.toNat < 4096) :
    (pack t w s).toNat = t.toNat * 2 ^ 22 + w.toNat * 2 ^ 12 + s.toNat := by
  obtain ⟨n, rfl⟩ : ∃ n : Nat, t = n := ⟨t.toNat, by omega⟩
  have hn : n < 2 ^ 41 := by omega
  unfold pack
  rw [BitVec.toNat_or, BitVec.toNat_or, BitVec.toNat_shiftLeft, BitVec.toNat_shiftLeft]
  have e1 : (BitVec.ofInt 64 (n : Int)).toNat = n := by
    rw [BitVec.toNat_ofInt]
    omega
  have s1 : n <<< 22 % 2 ^ 64 = n <<< 22 := by
    rw [Nat.shiftLeft_eq]; apply Nat.mod_eq_of_lt; omega
  have s2 : w.toNat <<< 12 % 2 ^ 64 = w.toNat <<< 12 := by
    rw [Nat.shiftLeft_eq]; apply Nat.mod_eq_of_lt; omega
  rw [e1, s1, s2]
  have b1 : w.toNat <<< 12 < 2 ^ 22 := by rw [Nat.shiftLeft_eq]; omega
  rw [← Nat.shiftLeft_add_eq_or_of_lt b1]
  have e3 : n <<< 22 + w.toNat <<< 12 = (n * 2 ^ 10 + w.toNat) <<< 12 := by
    rw [Nat.shiftLeft_eq, Nat.shiftLeft_eq, Nat.shiftLeft_eq]; omega
  rw [e3, ← Nat.shiftLeft_add_eq_or_of_lt (by omega : s.toNat < 2 ^ 12), Nat.shiftLeft_eq]
  simp only [Int.toNat_natCast]
  omega

/-- The same as a signed number. -/
theorem pack_toInt {t : Int} {w s : BitVec 64} (ht : 0 ≤ t ∧ t < 2 ^ 41) (hw : w.toNat < 1024) (hs : s.toNat < 4096) :
    (pack t w s).toInt = t * 2 ^ 22 + w.toNat * 2 ^ 12 + s.toNat := by
  have h := pack_toNat ht hw hs
  rw [BitVec.toInt_eq_toNat_of_lt (by omega), h]
  omega

/-- A generator in use. `last` is -1 or a timestamp in range. -/
structure Ok (w : Worker) : Prop where
  worker : w.workerId.toNat < 1024
  seq : w.sequence.toNat < 4096
  low : -1 ≤ w.lastTimestamp
  high : w.lastTimestamp < 2 ^ 41

/-- No ID given so far is above this. -/
def top (w : Worker) : Int := w.lastTimestamp * 2 ^ 22 + w.workerId.toNat * 2 ^ 12 + w.sequence.toNat

theorem nextMillisecond_spec {last : Int} : ∀ {clock : List Int} {t : Int} {rest : List Int}, nextMillisecond last clock = some (t, rest) →
    last < t ∧ (∃ ns ∈ clock, t = millis ns) ∧ ∀ ns ∈ rest, ns ∈ clock := by
  intro clock
  induction clock with
  | nil => intro t rest h; simp [nextMillisecond] at h
  | cons ns clock ih =>
    intro t rest h
    unfold nextMillisecond at h
    split at h
    · obtain ⟨a, ⟨n, hn, e⟩, c⟩ := ih h
      exact ⟨a, ⟨n, List.mem_cons_of_mem _ hn, e⟩, fun x hx => List.mem_cons_of_mem _ (c x hx)⟩
    · rename_i hlt
      simp at h
      obtain ⟨h1, h2⟩ := h
      subst h1 h2
      exact ⟨by omega, ⟨ns, List.mem_cons_self, rfl⟩, fun x hx => List.mem_cons_of_mem _ hx⟩

theorem seq_step {s : BitVec 64} (h : s.toNat < 4096) :
    (((s + 1) &&& sequenceMask).toNat < 4096) ∧ (((s + 1) &&& sequenceMask) ≠ 0 → ((s + 1) &&& sequenceMask).toNat = s.toNat + 1) := by
  rw [sequenceMask_eq]
  have e : ((s + 1) &&& (4095 : BitVec 64)).toNat = (s.toNat + 1) % 4096 := by
    rw [BitVec.toNat_and, BitVec.toNat_add]
    have : (4095 : BitVec 64).toNat = 2 ^ 12 - 1 := by decide
    rw [this, Nat.and_two_pow_sub_one_eq_mod]
    have : (1 : BitVec 64).toNat = 1 := by decide
    rw [this]
    omega
  refine ⟨by rw [e]; omega, ?_⟩
  intro hne
  have : ((s + 1) &&& (4095 : BitVec 64)).toNat ≠ 0 := by
    intro c
    apply hne
    exact BitVec.eq_of_toNat_eq (by rw [c]; rfl)
  rw [e] at this ⊢
  omega

/-- What one call does. -/
theorem nextID_spec {w w' : Worker} {clock rest : List Int} {r : Result} (hw : Ok w) (hc : ∀ ns ∈ clock, InRange ns)
    (h : nextID w clock = some (r, w', rest)) :
    Ok w' ∧ w'.workerId = w.workerId ∧ (∀ ns ∈ rest, ns ∈ clock) ∧
    ((r = .backwards ∧ w' = w ∧ ∃ ns tail, clock = ns :: tail ∧ millis ns < w.lastTimestamp) ∨
     (∃ i : BitVec 64, r = .id i ∧ i.toInt = top w' ∧ top w < top w' ∧ 0 ≤ w'.lastTimestamp ∧
        ∃ ns tail, clock = ns :: tail ∧ w.lastTimestamp ≤ millis ns)) := by
  cases clock with
  | nil => simp [nextID] at h
  | cons ns clock =>
    have hr := millis_range (hc ns List.mem_cons_self)
    have b1 := hw.worker
    have b2 := hw.seq
    have b3 := hw.low
    have b4 := hw.high
    unfold nextID at h
    dsimp only at h
    by_cases c1 : millis ns < w.lastTimestamp
    · rw [if_pos c1] at h
      simp at h
      obtain ⟨h1, h2, h3⟩ := h
      subst h1 h2 h3
      exact ⟨hw, rfl, fun x hx => List.mem_cons_of_mem _ hx, .inl ⟨rfl, rfl, ns, _, rfl, c1⟩⟩
    · rw [if_neg c1] at h
      by_cases c2 : millis ns = w.lastTimestamp
      · rw [if_pos c2] at h
        obtain ⟨s1, s2⟩ := seq_step hw.seq
        by_cases c3 : ((w.sequence + 1) &&& sequenceMask) = 0
        · rw [if_pos c3] at h
          cases hn : nextMillisecond w.lastTimestamp clock with
          | none => rw [hn] at h; simp at h
          | some x =>
            obtain ⟨t', rest'⟩ := x
            rw [hn] at h
            simp only [Option.some.injEq, Prod.mk.injEq] at h
            obtain ⟨h1, h2, h3⟩ := h
            subst h1 h2 h3
            obtain ⟨n1, ⟨n, hn, e⟩, n3⟩ := nextMillisecond_spec hn
            have hr' := millis_range (hc n (List.mem_cons_of_mem _ hn))
            rw [← e] at hr'
            rw [c3]
            refine ⟨⟨b1, by dsimp only; decide, by dsimp only; omega, hr'.2⟩, rfl, fun x hx => List.mem_cons_of_mem _ (n3 x hx), .inr ⟨_, rfl, ?_, ?_, hr'.1, ns, _, rfl, by omega⟩⟩
            · rw [pack_toInt hr' b1 (by decide)]
              rfl
            · unfold top
              dsimp only
              have : ((0 : BitVec 64).toNat : Int) = 0 := by decide
              omega
        · rw [if_neg c3] at h
          simp only [Option.some.injEq, Prod.mk.injEq] at h
          obtain ⟨h1, h2, h3⟩ := h
          subst h1 h2 h3
          have s3 := s2 c3
          refine ⟨⟨b1, s1, by dsimp only; omega, hr.2⟩, rfl, fun x hx => List.mem_cons_of_mem _ hx, .inr ⟨_, rfl, ?_, ?_, hr.1, ns, _, rfl, by omega⟩⟩
          · rw [pack_toInt hr b1 s1]
            rfl
          · unfold top
            dsimp only
            rw [s3]
            omega
      · rw [if_neg c2] at h
        simp only [Option.some.injEq, Prod.mk.injEq] at h
        obtain ⟨h1, h2, h3⟩ := h
        subst h1 h2 h3
        refine ⟨⟨b1, by dsimp only; decide, by dsimp only; omega, hr.2⟩, rfl, fun x hx => List.mem_cons_of_mem _ hx, .inr ⟨_, rfl, ?_, ?_, hr.1, ns, _, rfl, by omega⟩⟩
        · rw [pack_toInt hr b1 (by decide)]
          rfl
        · unfold top
          dsimp only
          have : ((0 : BitVec 64).toNat : Int) = 0 := by decide
          omega

theorem newIDWorker_spec (k : BitVec 64) :
    (∀ w, newIDWorker k = some w → Ok w ∧ w.workerId = k ∧ w.lastTimestamp = -1) ∧ (newIDWorker k = none ↔ k.toInt < 0 ∨ 1023 < k.toInt) := by
  have c : (k.slt 0 || maxWorker.slt k) = true ↔ k.toInt < 0 ∨ 1023 < k.toInt := by
    rw [maxWorker_eq, Bool.or_eq_true, BitVec.slt_iff_toInt_lt, BitVec.slt_iff_toInt_lt]
    have e0 : (0 : BitVec 64).toInt = 0 := by decide
    have e1 : (1023 : BitVec 64).toInt = 1023 := by decide
    rw [e0, e1]
  unfold newIDWorker
  by_cases h : (k.slt 0 || maxWorker.slt k) = true
  · rw [if_pos h]
    exact ⟨by intro w hw; simp at hw, by simpa using c.mp h⟩
  · rw [if_neg h]
    have hk : ¬ (k.toInt < 0 ∨ 1023 < k.toInt) := fun x => h (c.mpr x)
    refine ⟨?_, by simpa using hk⟩
    intro w hw
    simp at hw
    subst hw
    refine ⟨⟨?_, by dsimp only; decide, by dsimp only; decide, by dsimp only; decide⟩, rfl, rfl⟩
    dsimp only
    rw [BitVec.toInt_eq_toNat_cond] at hk
    have := k.isLt
    split at hk <;> omega

/-- Over many calls. -/
theorem calls_spec {n : Nat} : ∀ {w w' : Worker} {clock rest : List Int} {rs : List Result}, Ok w → (∀ ns ∈ clock, InRange ns) →
    calls w clock n = some (rs, w', rest) →
    Ok w' ∧ w'.workerId = w.workerId ∧ (∀ ns ∈ rest, ns ∈ clock) ∧ top w ≤ top w' ∧
    (idsOf rs).Pairwise (fun a b => a.toInt < b.toInt) ∧
    ∀ i ∈ idsOf rs, top w < i.toInt ∧ i.toInt ≤ top w' ∧ 0 ≤ i.toInt ∧ i.toInt / 2 ^ 12 % 2 ^ 10 = w.workerId.toNat := by
  induction n with
  | zero =>
    intro w w' clock rest rs hw _ h
    simp [calls] at h
    obtain ⟨h1, h2, h3⟩ := h
    subst h1 h2 h3
    exact ⟨hw, rfl, fun _ h => h, by omega, List.Pairwise.nil, by intro i hi; simp [idsOf] at hi⟩
  | succ n ih =>
    intro w w' clock rest rs hw hc h
    unfold calls at h
    cases h1 : nextID w clock with
    | none => rw [h1] at h; simp at h
    | some x =>
      obtain ⟨r, w1, c1⟩ := x
      rw [h1] at h
      dsimp only at h
      cases h2 : calls w1 c1 n with
      | none => rw [h2] at h; simp at h
      | some y =>
        obtain ⟨rs', w2, c2⟩ := y
        rw [h2] at h
        simp only [Option.some.injEq, Prod.mk.injEq] at h
        obtain ⟨e1, e2, e3⟩ := h
        subst e1 e2 e3
        obtain ⟨o1, k1, m1, d1⟩ := nextID_spec hw hc h1
        obtain ⟨o2, k2, m2, le, pw, al⟩ := ih o1 (fun ns hn => hc ns (m1 ns hn)) h2
        rcases d1 with ⟨rfl, rfl, _⟩ | ⟨i, rfl, hi, hlt, hpos, _⟩
        · have : idsOf (Result.backwards :: rs') = idsOf rs' := rfl
          rw [this]
          exact ⟨o2, k2, fun ns hn => m1 ns (m2 ns hn), le, pw, al⟩
        · have e : idsOf (Result.id i :: rs') = i :: idsOf rs' := rfl
          rw [e]
          refine ⟨o2, by rw [k2, k1], fun ns hn => m1 ns (m2 ns hn), by omega, ?_, ?_⟩
          · rw [List.pairwise_cons]
            exact ⟨fun j hj => by have := (al j hj).1; omega, pw⟩
          · intro j hj
            rcases List.mem_cons.mp hj with rfl | hj
            · have a := o1.worker
              have b := o1.seq
              rw [k1] at a
              refine ⟨by omega, by omega, ?_, ?_⟩
              · rw [hi]; unfold top; omega
              · rw [hi]; unfold top; rw [k1]; omega
            · obtain ⟨a, b, c, d⟩ := al j hj
              exact ⟨by omega, b, c, by rw [d, k1]⟩

end Zinx.Snowflake
