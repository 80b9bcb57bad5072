import Verif.Model.MapLock
import Verif.Lemmas.ExecOf

/-! # C90: calls of the sharded map return -/

set_option linter.unusedSimpArgs false
set_option linter.unusedSectionVars false

namespace Zinx.Props

open Zinx.MapLock

/-- The callbacks of a call do not use the map. -/
def plainOp : Op → Prop
  | .iter body => ∀ i, ∀ x ∈ body i, x = .work
  | .writeCb _ body => ∀ x ∈ body, x = .work
  | _ => True

inductive Hold where
  | read (i : Nat)
  | write (i : Nat)
deriving DecidableEq

/-- The lock a goroutine has, by what it will do next with locks. -/
def holds : List Instr → Option Hold
  | .work :: c => holds c
  | .runlock i :: _ => some (.read i)
  | .unlock i :: _ => some (.write i)
  | _ => none

/-- Code that locks and unlocks one shard after another. -/
def fine : Option Hold → List Instr → Prop
  | none, [] => True
  | h, .work :: c => fine h c
  | none, .rlock i :: c => fine (some (.read i)) c
  | none, .lock i :: c => fine (some (.write i)) c
  | some (.read i), .runlock j :: c => i = j ∧ fine none c
  | some (.write i), .unlock j :: c => i = j ∧ fine none c
  | _, _ => False

theorem fine_holds {h : Option Hold} {c : List Instr} (hc : fine h c) : holds c = h := by
  induction c with
  | nil => cases h <;> simp_all [fine, holds]
  | cons x c ih =>
    cases x <;> rcases h with _ | ⟨_ | _⟩ <;> simp_all [fine, holds]

theorem fine_body {h : Option Hold} {b c : List Instr} (hb : ∀ x ∈ b, x = .work) (hc : fine h c) : fine h (b ++ c) := by
  induction b with
  | nil => exact hc
  | cons x b ih =>
    obtain rfl := hb x (by simp)
    have := ih (fun x hx => hb x (by simp [hx]))
    cases h <;> exact this

theorem fine_append {c d : List Instr} (hd : fine none d) : ∀ {h : Option Hold}, fine h c → fine h (c ++ d) := by
  induction c with
  | nil => intro h hc; cases h <;> simp_all [fine]
  | cons x c ih =>
    intro h hc
    cases x <;> rcases h with _ | ⟨_ | _⟩ <;> simp_all [fine] 

theorem fine_op (n : Nat) (op : Op) (h : plainOp op) : fine none (op.code n) := by
  cases op with
  | read i => simp [Op.code, fine]
  | write i => simp [Op.code, fine]
  | count =>
    unfold Op.code
    induction List.range n with
    | nil => trivial
    | cons x xs ih => exact fine_append (c := [.rlock x, .runlock x]) ih ⟨rfl, trivial⟩
  | iter body =>
    unfold Op.code
    induction List.range n with
    | nil => trivial
    | cons x xs ih =>
      refine fine_append (c := .rlock x :: (body x ++ [.runlock x])) ih ?_
      exact fine_body (h := some (.read x)) (h x) ⟨rfl, trivial⟩
  | writeCb i body => exact fine_body (h := some (.write i)) h ⟨rfl, trivial⟩

structure LockInv (s : MapLock.State) : Prop where
  code : ∀ g, fine (holds (s.code g)) (s.code g)
  readers : ∀ i g, (s.readers i).count g = if (s.stat g = .ready ∧ holds (s.code g) = some (.read i)) ∨ (s.stat g = .waitR ∧ (s.code g).head? = some (.rlock i) ∧ g ∉ s.rwait i) then 1 else 0
  rwait : ∀ i g, g ∈ s.rwait i → s.stat g = .waitR ∧ (s.code g).head? = some (.rlock i)
  once : ∀ i, (s.rwait i).Nodup
  blocked : ∀ i, s.rwait i ≠ [] → s.writer i ≠ none
  writer : ∀ i g, s.writer i = some g ↔ (s.stat g = .ready ∧ holds (s.code g) = some (.write i)) ∨ (s.stat g = .waitW ∧ (s.code g).head? = some (.lock i))
  alone : ∀ i g, s.writer i = some g → s.stat g = .ready → s.readers i = []
  waitR : ∀ g, s.stat g = .waitR → ∃ i c, s.code g = .rlock i :: c
  waitW : ∀ g, s.stat g = .waitW → ∃ i c, s.code g = .lock i :: c

theorem lockInv_step {n : Nat} {s t : MapLock.State} {l : MapLock.Label} (h : LockInv s) (hs : MapLock.Step n s l t) (hp : ∀ g op, l = .call g op → plainOp op) : LockInv t := by
  obtain ⟨h1, h2, h3, h4, h5, h6, h7, h8, h9⟩ := h
  cases hs with
  | call g op hc _ =>
    have f := fine_op n op (hp g op rfl)
    have f' := fine_holds f
    have hst : s.stat g = .ready := by
      cases e : s.stat g with
      | ready => rfl
      | waitR => obtain ⟨i, c, hc'⟩ := h8 g e; rw [hc] at hc'; cases hc'
      | waitW => obtain ⟨i, c, hc'⟩ := h9 g e; rw [hc] at hc'; cases hc'
    constructor
    · intro j; have := h1 j; simp only [upd]; grind
    · intro i j; have := h2 i j; simp only [upd]; grind [holds]
    · intro i j; have := h3 i j; simp only [upd]; grind
    · exact h4
    · exact h5
    · intro i j; have := h6 i j; simp only [upd]; grind [holds]
    · exact h7
    · intro j; have := h8 j; simp only [upd]; grind
    · intro j; have := h9 j; simp only [upd]; grind
  | work g c hst hc =>
    have f := h1 g
    rw [hc] at f
    have e0 : holds (.work :: c) = holds c := rfl
    have f' : fine (holds c) c := by cases hh : holds c <;> rw [e0, hh] at f <;> exact f
    constructor
    · intro j; have := h1 j; (try simp only [upd]); grind
    · intro k j; have := h2 k j; have := h3 k j; (try simp only [upd]); grind [holds]
    · intro k j; have := h3 k j; (try simp only [upd]); grind
    · intro k; have := h4 k; (try simp only [upd]); grind
    · intro k; have := h5 k; (try simp only [upd]); grind
    · intro k j; have := h6 k j; (try simp only [upd]); grind [holds]
    · intro k j; have := h7 k j; (try simp only [upd]); grind
    · intro j; have := h8 j; (try simp only [upd]); grind
    · intro j; have := h9 j; (try simp only [upd]); grind
  | rlock g i c hst hc hw =>
    have f := h1 g
    rw [hc] at f
    have f' : fine (some (.read i)) c := f
    have e1 := fine_holds f'
    constructor
    · intro j; have := h1 j; (try simp only [upd]); grind
    · intro k j; have := h2 k j; have := h3 k j; (try simp only [upd]); grind [holds]
    · intro k j; have := h3 k j; (try simp only [upd]); grind
    · intro k; have := h4 k; (try simp only [upd]); grind
    · intro k; have := h5 k; (try simp only [upd]); grind
    · intro k j; have := h6 k j; (try simp only [upd]); grind [holds]
    · intro k j; have := h7 k j; (try simp only [upd]); grind
    · intro j; have := h8 j; (try simp only [upd]); grind
    · intro j; have := h9 j; (try simp only [upd]); grind
  | rlockWait g i c hst hc hw =>
    have f := h1 g
    rw [hc] at f
    have f' : fine (some (.read i)) c := f
    have e1 := fine_holds f'
    constructor
    · intro j; have := h1 j; (try simp only [upd]); grind
    · intro k j; have := h2 k j; have := h3 k j; (try simp only [upd]); grind [holds]
    · intro k j; have := h3 k j; (try simp only [upd]); grind
    · intro k; have := h4 k; (try simp only [upd]); grind
    · intro k; have := h5 k; (try simp only [upd]); grind
    · intro k j; have := h6 k j; (try simp only [upd]); grind [holds]
    · intro k j; have := h7 k j; (try simp only [upd]); grind
    · intro j; have := h8 j; (try simp only [upd]); grind
    · intro j; have := h9 j; (try simp only [upd]); grind
  | resume g i c hst hc hw =>
    have f := h1 g
    rw [hc] at f
    have f' : fine (some (.read i)) c := f
    have e1 := fine_holds f'
    constructor
    · intro j; have := h1 j; (try simp only [upd]); grind
    · intro k j; have := h2 k j; have := h3 k j; (try simp only [upd]); grind [holds]
    · intro k j; have := h3 k j; (try simp only [upd]); grind
    · intro k; have := h4 k; (try simp only [upd]); grind
    · intro k; have := h5 k; (try simp only [upd]); grind
    · intro k j; have := h6 k j; (try simp only [upd]); grind [holds]
    · intro k j; have := h7 k j; (try simp only [upd]); grind
    · intro j; have := h8 j; (try simp only [upd]); grind
    · intro j; have := h9 j; (try simp only [upd]); grind
  | runlock g i c hst hc =>
    have f := h1 g
    rw [hc] at f
    have f' : fine none c := f.2
    have e1 := fine_holds f'
    constructor
    · intro j; have := h1 j; (try simp only [upd]); grind
    · intro k j; have := h2 k j; have := h3 k j; (try simp only [upd]); grind [holds]
    · intro k j; have := h3 k j; (try simp only [upd]); grind
    · intro k; have := h4 k; (try simp only [upd]); grind
    · intro k; have := h5 k; (try simp only [upd]); grind
    · intro k j; have := h6 k j; (try simp only [upd]); grind [holds]
    · intro k j; have := h7 k j; (try simp only [upd]); grind
    · intro j; have := h8 j; (try simp only [upd]); grind
    · intro j; have := h9 j; (try simp only [upd]); grind
  | take g i c hst hc hw =>
    have f := h1 g
    rw [hc] at f
    have f' : fine (some (.write i)) c := f
    have e1 := fine_holds f'
    constructor
    · intro j; have := h1 j; (try simp only [upd]); grind
    · intro k j; have := h2 k j; have := h3 k j; (try simp only [upd]); grind [holds]
    · intro k j; have := h3 k j; (try simp only [upd]); grind
    · intro k; have := h4 k; (try simp only [upd]); grind
    · intro k; have := h5 k; (try simp only [upd]); grind
    · intro k j; have := h6 k j; (try simp only [upd]); grind [holds]
    · intro k j; have := h7 k j; (try simp only [upd]); grind
    · intro j; have := h8 j; (try simp only [upd]); grind
    · intro j; have := h9 j; (try simp only [upd]); grind
  | locked g i c hst hc hw =>
    have f := h1 g
    rw [hc] at f
    have f' : fine (some (.write i)) c := f
    have e1 := fine_holds f'
    constructor
    · intro j; have := h1 j; (try simp only [upd]); grind
    · intro k j; have := h2 k j; have := h3 k j; (try simp only [upd]); grind [holds]
    · intro k j; have := h3 k j; (try simp only [upd]); grind
    · intro k; have := h4 k; (try simp only [upd]); grind
    · intro k; have := h5 k; (try simp only [upd]); grind
    · intro k j; have := h6 k j; (try simp only [upd]); grind [holds]
    · intro k j; have := h7 k j; (try simp only [upd]); grind
    · intro j; have := h8 j; (try simp only [upd]); grind
    · intro j; have := h9 j; (try simp only [upd]); grind
  | unlock g i c hst hc =>
    have f := h1 g
    rw [hc] at f
    have f' : fine none c := f.2
    have e1 := fine_holds f'
    constructor
    · intro j; have := h1 j; (try simp only [upd]); grind
    · intro k j; have := h2 k j; have := h3 k j; (try simp only [upd]); grind [holds]
    · intro k j; have := h3 k j; (try simp only [upd]); grind
    · intro k; have := h4 k; (try simp only [upd]); grind
    · intro k; have := h5 k; (try simp only [upd]); grind
    · intro k j; have := h6 k j; (try simp only [upd]); grind [holds]
    · intro k j; have := h7 k j; (try simp only [upd]); grind
    · intro j; have := h8 j; (try simp only [upd]); grind
    · intro j; have := h9 j; (try simp only [upd]); grind

/-- Before the first `Q` state within a range the execution stays in `P`. -/
theorem upto {S L : Type} {step : S → L → S → Prop} (e : Exec step) {P Q : S → Prop} (I : S → Prop) (hI : ∀ k, I (e.run k)) (h : ∀ s l t, I s → P s → step s l t → P t ∨ Q t) {n : Nat}
    (h0 : P (e.run n)) : ∀ m, n ≤ m → (∃ k, n ≤ k ∧ Q (e.run k)) ∨ P (e.run m) := by
  intro m hm
  by_cases hq : ∃ k, n ≤ k ∧ Q (e.run k)
  · exact .inl hq
  · right
    induction m with
    | zero =>
      have : n = 0 := by omega
      rw [← this]; exact h0
    | succ m ih =>
      by_cases e1 : n = m + 1
      · rw [← e1]; exact h0
      · have hp := ih (by omega)
        have hn := e.next m
        cases ha : e.act m with
        | none => rw [ha] at hn; rw [hn]; exact hp
        | some l =>
          rw [ha] at hn
          rcases h _ l _ (hI m) hp hn with h1 | h1
          · exact h1
          · exact absurd ⟨m + 1, hm, h1⟩ hq

section
variable {n : Nat} (e : Exec (MapLock.Step n)) (hI : ∀ k, LockInv (e.run k)) (hown : ∀ g, e.WeakFair (· = .own g)) (hwork : ∀ g, e.WeakFair (· = .work g))
  (htake : ∀ g, e.StrongFair (· = .take g))
include hI hown

theorem move_own {g : Nat} {x : Instr} {c : List Instr} {k : Nat} (hst : (e.run k).stat g = .ready) (hc : (e.run k).code g = x :: c) (hx : (∃ i, x = .runlock i) ∨ ∃ i, x = .unlock i) :
    ∃ m, k ≤ m ∧ (e.run m).stat g = .ready ∧ (e.run m).code g = c := by
  refine e.leads_weak (hown g) (P := fun s => s.stat g = .ready ∧ s.code g = x :: c) (Q := fun s => s.stat g = .ready ∧ s.code g = c) (fun s l t hp hs => ?_) (fun s l t hp hs hA => ?_) (fun s hp => ?_) ⟨hst, hc⟩
  · obtain ⟨hp1, hp2⟩ := hp
    cases hs <;> simp only [upd] <;> grind
  · obtain ⟨hp1, hp2⟩ := hp
    subst hA
    cases hs <;> simp only [upd] <;> grind
  · rcases hx with ⟨i, rfl⟩ | ⟨i, rfl⟩
    · exact ⟨_, _, rfl, .runlock s g i c hp.1 hp.2⟩
    · exact ⟨_, _, rfl, .unlock s g i c hp.1 hp.2⟩

omit hI hown in
include hwork in
theorem move_work {g : Nat} {c : List Instr} {k : Nat} (hst : (e.run k).stat g = .ready) (hc : (e.run k).code g = .work :: c) :
    ∃ m, k ≤ m ∧ (e.run m).stat g = .ready ∧ (e.run m).code g = c := by
  refine e.leads_weak (hwork g) (P := fun s => s.stat g = .ready ∧ s.code g = .work :: c) (Q := fun s => s.stat g = .ready ∧ s.code g = c) (fun s l t hp hs => ?_) (fun s l t hp hs hA => ?_)
    (fun s hp => ⟨_, _, rfl, .work s g c hp.1 hp.2⟩) ⟨hst, hc⟩
  · obtain ⟨hp1, hp2⟩ := hp
    cases hs <;> simp only [upd] <;> grind
  · obtain ⟨hp1, hp2⟩ := hp
    subst hA
    cases hs <;> simp only [upd] <;> grind

include hwork in
/-- Whoever has a lock gives it up. -/
theorem gives_up {g : Nat} {h : Hold} : ∀ c k, (e.run k).stat g = .ready → (e.run k).code g = c → holds c = some h → ∃ m, k ≤ m ∧ (e.run m).stat g = .ready ∧ holds ((e.run m).code g) = none := by
  intro c
  induction c with
  | nil => intro k _ _ hh; cases hh
  | cons x c ih =>
    intro k hst hc hh
    have hf := (hI k).code g
    rw [hc] at hf
    cases x with
    | rlock i => cases hh
    | lock i => cases hh
    | work =>
      obtain ⟨m, hm, h1, h2⟩ := move_work e hwork hst hc
      obtain ⟨m', hm', h3⟩ := ih m h1 h2 hh
      exact ⟨m', by omega, h3⟩
    | runlock i =>
      obtain ⟨m, hm, h1, h2⟩ := move_own e hI hown hst hc (.inl ⟨i, rfl⟩)
      exact ⟨m, hm, h1, by rw [h2]; exact fine_holds hf.2⟩
    | unlock i =>
      obtain ⟨m, hm, h1, h2⟩ := move_own e hI hown hst hc (.inr ⟨i, rfl⟩)
      exact ⟨m, hm, h1, by rw [h2]; exact fine_holds hf.2⟩

include hwork in
/-- A reader that was let in goes on. -/
theorem resumes {g i : Nat} {c : List Instr} {k : Nat} (hst : (e.run k).stat g = .waitR) (hc : (e.run k).code g = .rlock i :: c) (hw : g ∉ (e.run k).rwait i) :
    ∃ m, k ≤ m ∧ (e.run m).stat g = .ready ∧ (e.run m).code g = c := by
  refine e.leads_weak (hown g) (P := fun s => s.stat g = .waitR ∧ s.code g = .rlock i :: c ∧ g ∉ s.rwait i) (Q := fun s => s.stat g = .ready ∧ s.code g = c) (fun s l t hp hs => ?_) (fun s l t hp hs hA => ?_)
    (fun s hp => ⟨_, _, rfl, .resume s g i c hp.1 hp.2.1 hp.2.2⟩) ⟨hst, hc, hw⟩
  · obtain ⟨hp1, hp2, hp3⟩ := hp
    cases hs <;> simp only [upd] <;> grind
  · obtain ⟨hp1, hp2, hp3⟩ := hp
    subst hA
    cases hs <;> simp only [upd] <;> grind

include hwork in
/-- A reader leaves. -/
theorem reader_leaves {g i k : Nat} (hg : g ∈ (e.run k).readers i) : ∃ m, k ≤ m ∧ g ∉ (e.run m).readers i := by
  have h0 := (hI k).readers i g
  have h1 : 0 < ((e.run k).readers i).count g := List.count_pos_iff.2 hg
  have gone : ∀ m, (e.run m).stat g = .ready → holds ((e.run m).code g) = none → g ∉ (e.run m).readers i := by
    intro m h2 h3 hg
    have h4 := (hI m).readers i g
    have h5 : 0 < ((e.run m).readers i).count g := List.count_pos_iff.2 hg
    simp [h2, h3] at h4
    omega
  split at h0
  · rename_i h
    rcases h with ⟨h2, h3⟩ | ⟨h2, h3, h4⟩
    · obtain ⟨m, hm, h5, h6⟩ := gives_up e hI hown hwork _ k h2 rfl h3
      exact ⟨m, hm, gone m h5 h6⟩
    · obtain ⟨j, c, hc⟩ := (hI k).waitR g h2
      rw [hc] at h3
      obtain rfl : j = i := by simpa using h3
      have hf := (hI k).code g
      rw [hc] at hf
      obtain ⟨m, hm, h5, h6⟩ := resumes e hI hown hwork h2 hc h4
      obtain ⟨m', hm', h7, h8⟩ := gives_up e hI hown hwork c m h5 h6 (fine_holds hf)
      exact ⟨m', by omega, gone m' h7 h8⟩
  · omega

include hwork in
/-- A writer that waits for readers goes on. -/
theorem writer_enters {g i : Nat} {c : List Instr} : ∀ d k, (e.run k).stat g = .waitW → (e.run k).code g = .lock i :: c → ((e.run k).readers i).length ≤ d →
    ∃ m, k ≤ m ∧ (e.run m).stat g = .ready ∧ (e.run m).code g = c := by
  have keep : ∀ R s l t, LockInv s → s.stat g = .waitW ∧ s.code g = .lock i :: c ∧ (s.readers i).Sublist R → MapLock.Step n s l t →
      (t.stat g = .waitW ∧ t.code g = .lock i :: c ∧ (t.readers i).Sublist R) ∨ (t.stat g = .ready ∧ t.code g = c) := by
    rintro R s l t hi ⟨hp1, hp2, hp3⟩ hs
    have hw : s.writer i = some g := (hi.writer i g).2 (.inr ⟨hp1, by rw [hp2]; rfl⟩)
    have hun : ∀ j c', s.stat j = .ready → s.code j = .unlock i :: c' → False := by
      intro j c' h1 h2
      have := (hi.writer i j).2 (.inl ⟨h1, by rw [h2]; rfl⟩)
      rw [hw] at this
      obtain rfl := Option.some.inj this
      rw [hp1] at h1; cases h1
    cases hs <;> simp only [upd] <;> grind [List.Sublist.trans, List.erase_sublist]
  intro d
  induction d with
  | zero =>
    intro k hst hc hr
    have hr0 : (e.run k).readers i = [] := List.eq_nil_of_length_eq_zero (by omega)
    apply Classical.byContradiction
    intro hno
    have hP : ∀ m, k ≤ m → (e.run m).stat g = .waitW ∧ (e.run m).code g = .lock i :: c ∧ ((e.run m).readers i).Sublist [] := by
      intro m hm
      rcases upto e LockInv hI (keep []) ⟨hst, hc, by rw [hr0]; exact .slnil⟩ m hm with h | h
      · exact absurd h hno
      · exact h
    obtain ⟨m, l, hm, ha, rfl⟩ := hown g k (fun m hm => ⟨_, _, rfl, .locked _ g i c (hP m hm).1 (hP m hm).2.1 (List.sublist_nil.1 (hP m hm).2.2)⟩)
    have hn := e.next m
    rw [ha] at hn
    obtain ⟨h1, h2, h3⟩ := hP m hm
    have : (e.run (m + 1)).stat g = .ready ∧ (e.run (m + 1)).code g = c := by
      generalize e.run (m + 1) = t at *
      generalize e.run m = s at *
      cases hn <;> simp only [upd] <;> grind
    exact hno ⟨m + 1, by omega, this⟩
  | succ d ih =>
    intro k hst hc hr
    cases hrd : (e.run k).readers i with
    | nil => exact ih k hst hc (by rw [hrd]; simp)
    | cons x xs =>
      obtain ⟨m, hm, hx⟩ := reader_leaves e hI hown hwork (g := x) (i := i) (k := k) (by rw [hrd]; simp)
      rcases upto e LockInv hI (keep (x :: xs)) ⟨hst, hc, by rw [hrd]; exact .refl _⟩ m hm with h | ⟨h1, h2, h3⟩
      · exact h
      · have hlt : ((e.run m).readers i).length ≤ d := by
          rw [hrd] at hr
          generalize (e.run m).readers i = ys at *
          cases h3 with
          | cons _ h3 => have := h3.length_le; simp at hr; omega
          | cons_cons _ h3 => simp at hx
        obtain ⟨m', hm', h5⟩ := ih m h1 h2 hlt
        exact ⟨m', by omega, h5⟩

include hwork in
/-- A shard is free of writers again and again. -/
theorem writer_leaves (i k : Nat) : ∃ m, k ≤ m ∧ (e.run m).writer i = none := by
  apply Classical.byContradiction
  intro hno
  have hne : ∀ m, k ≤ m → (e.run m).writer i ≠ none := fun m hm h => hno ⟨m, hm, h⟩
  obtain ⟨g, hg⟩ := Option.ne_none_iff_exists'.1 (hne k (Nat.le_refl _))
  have hsame : ∀ d, (e.run (k + d)).writer i = some g := by
    intro d
    induction d with
    | zero => exact hg
    | succ d ih =>
      have hn := e.next (k + d)
      have h1 := hne (k + (d + 1)) (by omega)
      rw [← Nat.add_assoc] at h1 ⊢
      generalize e.run (k + d + 1) = t at *
      generalize e.run (k + d) = s at *
      cases ha : e.act (k + d) with
      | none => rw [ha] at hn; rw [hn]; exact ih
      | some l =>
        rw [ha] at hn
        cases hn <;> simp only [upd] at h1 ⊢ <;> grind
  have hsame' : ∀ m, k ≤ m → (e.run m).writer i = some g := by
    intro m hm
    have := hsame (m - k)
    rwa [show k + (m - k) = m by omega] at this
  have active : ∀ m, k ≤ m → (e.run m).stat g = .ready → False := by
    intro m hm hst
    rcases ((hI m).writer i g).1 (hsame' m hm) with ⟨_, h⟩ | ⟨h, _⟩
    · obtain ⟨m', hm', h1, h2⟩ := gives_up e hI hown hwork _ m hst rfl h
      rcases ((hI m').writer i g).1 (hsame' m' (by omega)) with ⟨_, h⟩ | ⟨h, _⟩
      · rw [h2] at h; cases h
      · rw [h1] at h; cases h
    · rw [hst] at h; cases h
  rcases ((hI k).writer i g).1 hg with ⟨h, _⟩ | ⟨h1, h2⟩
  · exact active k (Nat.le_refl _) h
  · obtain ⟨j, c, hc⟩ := (hI k).waitW g h1
    obtain ⟨m, hm, h3, _⟩ := writer_enters e hI hown hwork _ k h1 hc (Nat.le_refl _)
    exact active m hm h3

include hwork in
/-- A waiting reader is let in and goes on. -/
theorem wait_ends {g i : Nat} {c : List Instr} {k : Nat} (hst : (e.run k).stat g = .waitR) (hc : (e.run k).code g = .rlock i :: c) : ∃ m, k ≤ m ∧ (e.run m).code g = c := by
  obtain ⟨m, hm, hw⟩ := writer_leaves e hI hown hwork i k
  rcases upto e LockInv hI (P := fun s => s.stat g = .waitR ∧ s.code g = .rlock i :: c) (Q := fun s => s.code g = c) (fun s l t _ hp hs => by
      obtain ⟨hp1, hp2⟩ := hp
      cases hs <;> simp only [upd] <;> grind) ⟨hst, hc⟩ m hm with h | ⟨h1, h2⟩
  · exact h
  · have h3 : (e.run m).rwait i = [] := by
      apply Classical.byContradiction
      intro h
      exact (hI m).blocked i h hw
    obtain ⟨m', hm', _, h⟩ := resumes e hI hown hwork h1 h2 (by rw [h3]; simp)
    exact ⟨m', by omega, h⟩

include hwork htake in
/-- Every instruction of a call is done. -/
theorem moves {g : Nat} {x : Instr} {c : List Instr} {k : Nat} (hc : (e.run k).code g = x :: c) : ∃ m, k ≤ m ∧ (e.run m).code g = c := by
  cases hst : (e.run k).stat g with
  | waitW =>
    obtain ⟨j, c', hc'⟩ := (hI k).waitW g hst
    rw [hc] at hc'
    obtain ⟨rfl, rfl⟩ := List.cons.inj hc'
    obtain ⟨m, hm, _, h⟩ := writer_enters e hI hown hwork _ k hst hc (Nat.le_refl _)
    exact ⟨m, hm, h⟩
  | waitR =>
    obtain ⟨j, c', hc'⟩ := (hI k).waitR g hst
    rw [hc] at hc'
    obtain ⟨rfl, rfl⟩ := List.cons.inj hc'
    exact wait_ends e hI hown hwork hst hc
  | ready =>
    cases x with
    | work => obtain ⟨m, hm, _, h⟩ := move_work e hwork hst hc; exact ⟨m, hm, h⟩
    | runlock i => obtain ⟨m, hm, _, h⟩ := move_own e hI hown hst hc (.inl ⟨i, rfl⟩); exact ⟨m, hm, h⟩
    | unlock i => obtain ⟨m, hm, _, h⟩ := move_own e hI hown hst hc (.inr ⟨i, rfl⟩); exact ⟨m, hm, h⟩
    | rlock i =>
      obtain ⟨m, hm, h⟩ := e.leads_weak (hown g) (P := fun s => s.stat g = .ready ∧ s.code g = .rlock i :: c) (Q := fun s => s.code g = c ∨ s.stat g = .waitR ∧ s.code g = .rlock i :: c)
        (fun s l t hp hs => by
          obtain ⟨hp1, hp2⟩ := hp
          cases hs <;> simp only [upd] <;> grind)
        (fun s l t hp hs hA => by
          obtain ⟨hp1, hp2⟩ := hp
          subst hA
          cases hs <;> simp only [upd] <;> grind)
        (fun s hp => by
          cases hw : s.writer i with
          | none => exact ⟨_, _, rfl, .rlock s g i c hp.1 hp.2 hw⟩
          | some j => exact ⟨_, _, rfl, .rlockWait s g i c hp.1 hp.2 (by rw [hw]; simp)⟩) ⟨hst, hc⟩
      rcases h with h | ⟨h1, h2⟩
      · exact ⟨m, hm, h⟩
      · obtain ⟨m', hm', h3⟩ := wait_ends e hI hown hwork h1 h2
        exact ⟨m', by omega, h3⟩
    | lock i =>
      obtain ⟨m, hm, h1, h2⟩ := e.leads_strong (htake g) (P := fun s => s.stat g = .ready ∧ s.code g = .lock i :: c) (Q := fun s => s.stat g = .waitW ∧ s.code g = .lock i :: c)
        (fun s l t hp hs => by
          obtain ⟨hp1, hp2⟩ := hp
          cases hs <;> simp only [upd] <;> grind)
        (fun s l t hp hs hA => by
          obtain ⟨hp1, hp2⟩ := hp
          subst hA
          cases hs <;> simp only [upd] <;> grind)
        (fun k hP => by
          obtain ⟨m, hm, h⟩ := writer_leaves e hI hown hwork i k
          exact ⟨m, hm, _, _, rfl, .take _ g i c (hP m hm).1 (hP m hm).2 h⟩) ⟨hst, hc⟩
      obtain ⟨m', hm', _, h⟩ := writer_enters e hI hown hwork _ m h1 h2 (Nat.le_refl _)
      exact ⟨m', by omega, h⟩

include hwork htake in
theorem call_ends {g : Nat} : ∀ c k, (e.run k).code g = c → ∃ m, k ≤ m ∧ (e.run m).code g = [] := by
  intro c
  induction c with
  | nil => intro k h; exact ⟨k, Nat.le_refl _, h⟩
  | cons x c ih =>
    intro k h
    obtain ⟨m, hm, h1⟩ := moves e hI hown hwork htake h
    obtain ⟨m', hm', h2⟩ := ih m h1
    exact ⟨m', by omega, h2⟩

end

theorem lockInv_start : LockInv {} := by
  constructor <;> simp [holds, fine]

/-- **C90, in part.** If callbacks do not use the map themselves, then in every infinite execution in which goroutines go on whenever they can (callbacks included) and a goroutine waiting for other
writers gets its turn, every call returns: whatever calls others make, however many, and whenever. -/
theorem C90_partial (n : Nat) (e : Exec (MapLock.Step n)) (h0 : e.run 0 = {}) (hp : ∀ k g op, e.act k = some (.call g op) → plainOp op) (hown : ∀ g, e.WeakFair (· = .own g))
    (hwork : ∀ g, e.WeakFair (· = .work g)) (htake : ∀ g, e.StrongFair (· = .take g)) (g k : Nat) : ∃ m, k ≤ m ∧ (e.run m).code g = [] := by
  refine call_ends e (fun k => ?_) hown hwork htake _ k rfl
  induction k with
  | zero => rw [h0]; exact lockInv_start
  | succ k ih =>
    have hn := e.next k
    cases ha : e.act k with
    | none => rw [ha] at hn; rw [hn]; exact ih
    | some l => rw [ha] at hn; exact lockInv_step ih hn (fun g op hl => hp k g op (by rw [ha, hl]))

/-- Goroutine `g` is past `Lock` or `RLock` of a shard and before the matching `Unlock` or `RUnlock`. -/
def inside (s : MapLock.State) (g : Nat) (h : Hold) : Prop := s.stat g = .ready ∧ holds (s.code g) = some h

/-- Under the same condition on callbacks, no shard is written while another goroutine reads or writes it, which is why `Model/ShardMap` may take calls on a shard as atomic. -/
theorem C90_exclusive (n : Nat) (ls : List MapLock.Label) (t : MapLock.State) (h : Steps (MapLock.Step n) {} ls t) (hp : ∀ g op, .call g op ∈ ls → plainOp op) (i g g' : Nat)
    (hg : inside t g (.write i)) : (inside t g' (.write i) → g' = g) ∧ ¬ inside t g' (.read i) := by
  have hi : LockInv t := by
    have := h.invariant_trace (P := fun ls s => (∀ g op, .call g op ∈ ls → plainOp op) → LockInv s) (fun ls s l t ih hs hp => lockInv_step (ih (fun g op hm => hp g op (by simp [hm]))) hs
      (fun g op hl => hp g op (by simp [hl]))) (fun _ => lockInv_start)
    exact this hp
  have hw := (hi.writer i g).2 (.inl hg)
  constructor
  · intro hg'
    have := (hi.writer i g').2 (.inl hg')
    rw [hw] at this
    exact (Option.some.inj this).symm
  · intro hg'
    have h1 := hi.alone i g hw hg.1
    have h2 := hi.readers i g'
    rw [h1] at h2
    simp [hg'.1, hg'.2] at h2

/-- An `IterCb` with a callback that takes a while, a `Set` that waits for it and a `Get` that waits for the `Set`. -/
theorem maplock_example : ∃ ls t, Steps (MapLock.Step 1) {} ls t ∧ (∀ g, t.code g = []) ∧ (∀ g op, .call g op ∈ ls → plainOp op) ∧ .call 0 (.iter fun _ => [.work]) ∈ ls ∧
    .call 1 (.write 0) ∈ ls ∧ .call 2 (.read 0) ∈ ls := by
  refine ⟨_, _, .cons (.call _ 0 (.iter fun _ => [.work]) rfl (fun _ => .work)) (.cons (.rlock _ 0 0 [.work, .runlock 0] rfl rfl rfl) (.cons (.call _ 1 (.write 0) rfl trivial) (.cons (.take _ 1 0 [.unlock 0] rfl rfl rfl)
    (.cons (.call _ 2 (.read 0) rfl trivial) (.cons (.rlockWait _ 2 0 [.runlock 0] rfl rfl (by simp [upd])) (.cons (.work _ 0 [.runlock 0] rfl rfl) (.cons (.runlock _ 0 0 [] rfl rfl)
    (.cons (.locked _ 1 0 [.unlock 0] rfl rfl rfl) (.cons (.unlock _ 1 0 [] rfl rfl) (.cons (.resume _ 2 0 [.runlock 0] rfl rfl (by simp [upd])) (.cons (.runlock _ 2 0 [] rfl rfl) (.nil _)))))))))))),
    ?_, ?_, ?_, ?_, ?_⟩
  · intro g; simp only [upd]; grind
  · intro g op; simp; grind [plainOp]
  · simp
  · simp
  · simp

example : ∃ e : Exec (MapLock.Step 1), e.run 0 = {} ∧ (∀ k g op, e.act k = some (.call g op) → plainOp op) ∧ (∀ g, e.WeakFair (· = .own g)) ∧ (∀ g, e.WeakFair (· = .work g)) ∧
    (∀ g, e.StrongFair (· = .take g)) ∧ ∃ k, e.act k = some (.call 1 (.write 0)) := by
  obtain ⟨ls, t, h, h1, h2, h3, h4, _⟩ := maplock_example
  obtain ⟨e, e1, e2, e3, e4⟩ := Exec.ofSteps h
  refine ⟨e, e1, fun k g op hk => h2 g op (List.mem_of_getElem? (by rw [← e2, hk])), fun g => Exec.weakFair_of_end e4 ?_, fun g => Exec.weakFair_of_end e4 ?_, fun g => Exec.strongFair_of_end e4 ?_, ?_⟩
  · rintro ⟨l, u, rfl, hs⟩; have := h1 g; cases hs <;> simp_all
  · rintro ⟨l, u, rfl, hs⟩; have := h1 g; cases hs <;> simp_all
  · rintro ⟨l, u, rfl, hs⟩; have := h1 g; cases hs <;> simp_all
  · obtain ⟨k, hk⟩ := List.getElem?_of_mem h4
    exact ⟨k, by rw [e2, hk]⟩

/-- The shards of a map (`ShardCount`). -/
def someShards : Nat := 32

/-- What callbacks do in the first shard only. -/
def firstShard (c : List Instr) : Nat → List Instr := fun i => if i = 0 then c else []

theorem firstShard_wf {c : List Instr} (h : Whole c) : (Op.iter (firstShard c)).wf := by
  intro i
  unfold firstShard
  split
  · exact h
  · exact .nil

theorem whole_op (n : Nat) (op : Op) (h : op.wf) : Whole (op.code n) := by
  cases op with
  | read i => exact .read i [] .nil
  | write i => exact .write i [] .nil
  | count =>
    unfold Op.code
    induction List.range n with
    | nil => exact .nil
    | cons x xs ih => exact .append _ _ (.read x [] .nil) ih
  | iter body =>
    unfold Op.code
    induction List.range n with
    | nil => exact .nil
    | cons x xs ih => exact .append _ _ (.read x _ (h x)) ih
  | writeCb i body => exact .write i _ h

/-- Shard `i` is not unlocked before it is locked. -/
def locksFirst (i : Nat) : List Instr → Prop
  | .lock j :: c => j = i ∨ locksFirst i c
  | .unlock j :: c => j ≠ i ∧ locksFirst i c
  | _ :: c => locksFirst i c
  | [] => True

theorem locksFirst_whole {i : Nat} {c : List Instr} (hc : Whole c) : ∀ {d : List Instr}, locksFirst i d → locksFirst i (c ++ d) := by
  induction hc with
  | nil => intro d h; exact h
  | work => intro d h; exact h
  | read j c _ ih => intro d h; simp only [List.cons_append, List.append_assoc]; exact ih h
  | write j c _ ih =>
    intro d h
    simp only [List.cons_append, List.append_assoc]
    by_cases e : j = i
    · exact .inl e
    · exact .inr (ih ⟨e, h⟩)
  | append c d _ _ ih1 ih2 => intro d' h; rw [List.append_assoc]; exact ih1 (ih2 h)

/-- **C90 is false of the code:** a callback of `IterCb` that sets or removes a key in the shard being visited waits for itself for ever; nobody else is needed. -/
theorem C90_reenter_refuted : ∃ ls t, Steps (MapLock.Step someShards) {} ls t ∧ (∀ g op, .call g op ∈ ls → g = 0 ∧ op = .iter (firstShard ((Op.write 0).code someShards))) ∧
    ∀ ls' u, Steps (MapLock.Step someShards) t ls' u → u.code 0 ≠ [] := by
  refine ⟨_, _, .cons (.call _ 0 (.iter (firstShard ((Op.write 0).code someShards))) rfl (firstShard_wf (whole_op someShards _ trivial))) (.cons (.rlock _ 0 0 _ rfl rfl rfl) (.cons (.take _ 0 0 _ rfl rfl rfl) (.nil _))), by simp, ?_⟩
  intro ls' u h
  have := h.invariant (P := fun s => s.stat 0 = .waitW ∧ (s.code 0).head? = some (.lock 0) ∧ 0 ∈ s.readers 0) (fun s l t hp hs => by
    obtain ⟨h1, h2, h3⟩ := hp
    cases hs <;> simp only [upd] <;> grind) ⟨rfl, rfl, by simp [upd]⟩
  intro he
  rw [he] at this
  simp at this

/-- Goroutine `a` waits to read shard 0, which it reads already, behind the writer 1, which waits for the readers. -/
structure Stuck (a : Nat) (s : MapLock.State) : Prop where
  stat : s.stat a = .waitR
  code : (s.code a).head? = some (.rlock 0)
  rwait : a ∈ s.rwait 0
  stat1 : s.stat 1 = .waitW
  code1 : (s.code 1).head? = some (.lock 0)
  writer : s.writer 0 = some 1
  readers : 0 ∈ s.readers 0
  zero : a = 0 ∨ s.stat 0 = .ready ∧ (s.code 0).head? = some .work
  others : ∀ g, g ≠ 0 → g ≠ 1 → g ≠ a → locksFirst 0 (s.code g) ∧ (s.stat g ≠ .ready → s.code g ≠ []) ∧ (s.stat g = .waitW → (s.code g).head? ≠ some (.lock 0))

theorem stuck_step {a : Nat} {s t : MapLock.State} {l : MapLock.Label} (ha : a ≠ 1) (h : Stuck a s) (hs : MapLock.Step someShards s l t) (hl : a = 0 ∨ l ≠ .work 0) : Stuck a t := by
  obtain ⟨h1, h2, h3, h4, h5, h6, h7, h8, h9⟩ := h
  have hun : ∀ g c, s.stat g = .ready → s.code g = .unlock 0 :: c → False := by
    intro g c hst hc
    by_cases e2 : g = a
    · subst e2; rw [h1] at hst; cases hst
    · by_cases e0 : g = 0
      · subst e0
        rcases h8 with h8 | ⟨_, h8⟩
        · exact e2 h8.symm
        · rw [hc] at h8; cases h8
      · by_cases e1 : g = 1
        · subst e1; rw [h4] at hst; cases hst
        · have := (h9 g e0 e1 e2).1
          rw [hc] at this
          exact this.1 rfl
  have hwh : ∀ op : Op, op.wf → locksFirst 0 (op.code someShards) := by
    intro op ho
    have := locksFirst_whole (i := 0) (whole_op someShards op ho) (d := []) trivial
    rwa [List.append_nil] at this
  constructor
  case others =>
    intro g g0 g1 g2
    have := h9 g g0 g1 g2
    cases hs <;> (try simp only [upd]) <;> grind [locksFirst]
  all_goals cases hs <;> (try simp only [upd]) <;> grind [locksFirst]

/-- **C90 is false of the code** even for callbacks that only read: a callback that counts the elements (`Len` of the connection manager) waits for a writer that came in between, which waits for the
iteration. Both are stuck for ever. -/
theorem C90_nested_refuted : ∃ ls t, Steps (MapLock.Step someShards) {} ls t ∧
    (∀ g op, .call g op ∈ ls → g = 0 ∧ op = .iter (firstShard (Op.count.code someShards)) ∨ g = 1 ∧ op = .write 0) ∧
    ∀ ls' u, Steps (MapLock.Step someShards) t ls' u → u.code 0 ≠ [] ∧ u.code 1 ≠ [] := by
  refine ⟨_, _, .cons (.call _ 0 (.iter (firstShard (Op.count.code someShards))) rfl (firstShard_wf (whole_op someShards _ trivial))) (.cons (.rlock _ 0 0 _ rfl rfl rfl)
    (.cons (.call _ 1 (.write 0) rfl trivial) (.cons (.take _ 1 0 _ rfl rfl rfl) (.cons (.rlockWait _ 0 0 _ rfl rfl (by simp [upd])) (.nil _))))), by simp, ?_⟩
  intro ls' u h
  have := h.invariant (P := Stuck 0) (fun s l t hp hs => stuck_step (by simp) hp hs (.inl rfl))
    ⟨rfl, rfl, by simp [upd], rfl, rfl, rfl, by simp [upd], .inl rfl, fun g e0 e1 _ => by simp [upd, e0, e1, locksFirst]⟩
  constructor <;> intro he
  · have := this.code; rw [he] at this; cases this
  · have := this.code1; rw [he] at this; cases this

/-- **C90 is false of the code** while a callback does not return: a `Set` in the shard being visited waits for it, and then so do all calls that only read this shard, such as `Len`, with which the
server counts its connections before it accepts another. `NotifyAll` sends in such a callback; a peer that does not read keeps it from returning. -/
theorem C90_slow_refuted : ∃ ls t, Steps (MapLock.Step someShards) {} ls t ∧
    (∀ g op, .call g op ∈ ls → g = 0 ∧ op = .iter (firstShard [.work]) ∨ g = 1 ∧ op = .write 0 ∨ g = 2 ∧ op = .count) ∧
    ∀ ls' u, Steps (MapLock.Step someShards) t ls' u → .work 0 ∉ ls' → u.code 1 ≠ [] ∧ u.code 2 ≠ [] := by
  refine ⟨_, _, .cons (.call _ 0 (.iter (firstShard [.work])) rfl (firstShard_wf .work)) (.cons (.rlock _ 0 0 _ rfl rfl rfl) (.cons (.call _ 1 (.write 0) rfl trivial) (.cons (.take _ 1 0 _ rfl rfl rfl)
    (.cons (.call _ 2 .count rfl trivial) (.cons (.rlockWait _ 2 0 _ rfl rfl (by simp [upd])) (.nil _)))))), by simp, ?_⟩
  intro ls' u h hn
  have := h.invariant_trace (P := fun ls s => .work 0 ∉ ls → Stuck 2 s) (fun ls s l t hp hs hn => stuck_step (by simp) (hp (fun h => hn (by simp [h]))) hs (.inr (fun e => hn (by simp [e]))))
    (fun _ => ⟨rfl, rfl, by simp [upd], rfl, rfl, rfl, by simp [upd], .inr ⟨rfl, rfl⟩, fun g e0 e1 e2 => by simp [upd, e0, e1, e2, locksFirst]⟩) hn
  constructor <;> intro he
  · have := this.code1; rw [he] at this; cases this
  · have := this.code; rw [he] at this; cases this

end Zinx.Props
