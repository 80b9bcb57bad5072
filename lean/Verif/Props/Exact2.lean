import Verif.Props.ConnLife
import Verif.Props.Worker
import Verif.Props.Wire

/-!
# Exact conditions for C17, C36 and C70
-/

namespace Zinx.Props

open Zinx Zinx.Spec Zinx.Frame Zinx.Pack Zinx.Decoder Zinx.ConnLife Zinx.Worker

/-! ## C17 -/

/-- **C17, the exact condition.** A limit bounds what a router can be given exactly if it is at least 2^32-9, so that no frame can exceed it; the configured value has no influence. -/
theorem C17_exact (limit : UInt32) : (∀ reads, ∀ m ∈ (receiveNew .tlv reads).1, m.1.data.length ≤ limit.toNat) ↔ 2 ^ 32 - 9 ≤ limit.toNat := by
  constructor
  · intro h
    by_cases hl : 2 ^ 32 - 9 ≤ limit.toNat
    · exact hl
    · exfalso
      obtain ⟨reads, m, hm, _, hlong⟩ := C17_refuted_any_limit limit (List.replicate (limit.toNat + 1) 0) (by rw [List.length_replicate]; omega) (by rw [List.length_replicate]; omega)
      have := h reads m hm
      omega
  · intro hl reads m hm
    have := (C17_partial reads m hm).1
    omega

/-! ## C36 -/

/-- **C36, the exact condition.** Whatever has happened to the connection so far, and as long as the process lives, a call of `Stop` panics exactly if `Start` has not yet made the context; it succeeds exactly
if it has. -/
theorem C36_exact {k : ConnLife.Kind} {stuck : Bool} (ls : List ConnLife.Label) (s : ConnLife.State) (h : Steps (ConnLife.Step k stuck) {} ls s) (hc : s.crashed = false) :
    ((∃ t, ConnLife.Step k stuck s .stopPanic t) ↔ ConnLife.Label.begin ∉ ls) ∧ ((∃ t, ConnLife.Step k stuck s .stop t) ↔ ConnLife.Label.begin ∈ ls) := by
  have hctx : ConnLife.Label.begin ∉ ls → s.ctxSet = false := by
    refine Steps.invariant_trace (P := fun ls s => ConnLife.Label.begin ∉ ls → s.ctxSet = false) ?_ h (fun _ => rfl)
    intro ls s l t hi hs hm
    rw [List.mem_append, List.mem_singleton] at hm
    have h1 := hi (fun x => hm (.inl x))
    obtain ⟨_, hs⟩ := hs
    cases hs <;> simp_all
  have hp := fun hb => C36_partial ls s h hb
  by_cases hb : ConnLife.Label.begin ∈ ls
  · obtain ⟨h1, h2, _⟩ := hp hb
    exact ⟨⟨fun ⟨t, ht⟩ => absurd ht (h1 t), fun h3 => absurd hb h3⟩, fun _ => hb, fun _ => h2 hc⟩
  · have h0 := hctx hb
    refine ⟨⟨fun _ => hb, fun _ => ⟨_, .run hc (.stopPanic _ h0)⟩⟩, fun ⟨t, ht⟩ => ?_, fun h3 => absurd h3 hb⟩
    obtain ⟨_, ht⟩ := ht
    cases ht with
    | stop h1 => rw [h0] at h1; cases h1

/-! ## C70 -/

theorem noPool_submit (l : List Req) : ∀ a b : List Req, ∃ ls, Steps NoPoolStep (a, b) ls (a ++ l, b) ∧ submitted 0 ls = l ∧ started 0 ls = [] := by
  induction l with
  | nil => intro a b; exact ⟨[], by rw [List.append_nil]; exact .nil _, rfl, rfl⟩
  | cons r l ih =>
    intro a b
    obtain ⟨ls, h1, h2, h3⟩ := ih (a ++ [r]) b
    rw [List.append_assoc] at h1
    refine ⟨.submit 0 r :: ls, .cons (.deliver a b r) h1, ?_, ?_⟩
    · simp only [submitted, List.filterMap_cons, if_true] at h2 ⊢
      rw [h2]
    · simpa only [started, List.filterMap_cons] using h3

theorem noPool_start (p : List Req) : ∀ a b : List Req, p.Perm a → ∃ ls, Steps NoPoolStep (a, b) ls ([], b ++ p) ∧ submitted 0 ls = [] ∧ started 0 ls = p := by
  induction p with
  | nil =>
    intro a b hp
    have := List.Perm.nil_eq hp
    subst this
    exact ⟨[], by rw [List.append_nil]; exact .nil _, rfl, rfl⟩
  | cons r p ih =>
    intro a b hp
    obtain ⟨hr, hp'⟩ := List.cons_perm_iff_perm_erase.1 hp
    obtain ⟨ls, h1, h2, h3⟩ := ih (a.erase r) (b ++ [r]) hp'
    rw [List.append_assoc] at h1
    refine ⟨.start 0 r :: ls, .cons (.start a b r hr) h1, ?_, ?_⟩
    · simpa only [submitted, List.filterMap_cons] using h2
    · simp only [started, List.filterMap_cons, if_true] at h3 ⊢
      rw [h3]

theorem filterMap_two {α : Type} {f : Act → Option α} (a b : List Act) : (a ++ b).filterMap f = a.filterMap f ++ b.filterMap f := List.filterMap_append

/-- **C70, the exact condition.** Without a worker pool the handlers of the messages of a connection are begun in some order in which each comes as often as it was delivered, and every such order is possible,
with all of them running at the same time. -/
theorem C70_exact (l p : List Req) :
    (∃ ls s, Steps NoPoolStep ([], []) ls s ∧ submitted 0 ls = l ∧ started 0 ls = p ∧ s.1 = []) ↔ p.Perm l := by
  constructor
  · rintro ⟨ls, s, h, rfl, rfl, h0⟩
    refine List.perm_iff_count.2 fun r => ?_
    have := (C70_partial h r).1
    rw [h0] at this
    simpa using this.symm
  · intro hp
    obtain ⟨ls1, h1, s1, t1⟩ := noPool_submit l [] []
    obtain ⟨ls2, h2, s2, t2⟩ := noPool_start p ([] ++ l) [] hp
    refine ⟨ls1 ++ ls2, _, h1.append h2, ?_, ?_, rfl⟩
    · rw [submitted, filterMap_two]; rw [submitted] at s1 s2; rw [s1, s2, List.append_nil]
    · rw [started, filterMap_two]; rw [started] at t1 t2; rw [t1, t2, List.nil_append]

/-- All at once: the run above ends with every handler begun and none ended. -/
theorem C70_overlap (l p : List Req) (hp : p.Perm l) : ∃ ls, Steps NoPoolStep ([], []) ls ([], p) ∧ submitted 0 ls = l ∧ started 0 ls = p := by
  obtain ⟨ls1, h1, s1, t1⟩ := noPool_submit l [] []
  obtain ⟨ls2, h2, s2, t2⟩ := noPool_start p ([] ++ l) [] hp
  refine ⟨ls1 ++ ls2, h1.append h2, ?_, ?_⟩
  · rw [submitted, filterMap_two]; rw [submitted] at s1 s2; rw [s1, s2, List.append_nil]
  · rw [started, filterMap_two]; rw [started] at t1 t2; rw [t1, t2, List.nil_append]

/-- Non-trivial cases: the limit of the default configuration is far below the bound of C17; a fresh connection has no context, one that has begun has; three messages in reverse order. -/
example : ¬ (2 ^ 32 - 9 ≤ (4096 : UInt32).toNat) := by decide

example : (∃ t, ConnLife.Step .tcp false {} .stopPanic t) ∧ ∃ s, Steps (ConnLife.Step .tcp false) {} [.begin] s ∧ ∃ t, ConnLife.Step .tcp false s .stop t :=
  ⟨((C36_exact (k := .tcp) (stuck := false) [] {} (.nil _) rfl).1).2 nofun, _, .cons (.run rfl (.begin _ rfl)) (.nil _), _, .run rfl (.stop _ rfl)⟩

example : [3, 2, 1].Perm [1, 2, 3] := by decide

end Zinx.Props
