import Verif.Props.Send

/-! # C38, continued: nothing is written after a write that was cut short -/

namespace Zinx.Props

open Zinx.Send

/-- Are these bytes written to the socket? -/
def writesBytes : Send.Label → Bool
  | .dwrite .. | .wwrite _ => true
  | _ => false

/-- The network fails, or the write of a direct send is cut short. -/
def breaksOff : Send.Label → Bool
  | .netFail | .dwrite _ _ false => true
  | _ => false

/-- **C38 (end).** Nothing is written after the network has failed or a direct write was cut short: bytes of an incomplete message of a direct send are the last ones on the wire. -/
theorem C38_end (cc bc : Nat) (a b : List Send.Label) (l : Send.Label) (t : Send.State) (h : Steps (Send.Step cc bc) {} (a ++ l :: b) t) (hl : breaksOff l = true) : ∀ l' ∈ b, writesBytes l' = false := by
  obtain ⟨s, _, h2⟩ := h.split
  cases h2 with
  | @cons _ u _ _ _ h3 h4 =>
    have hb : u.broken = true := by cases h3 <;> simp_all [breaksOff]
    clear h3
    have hi := h4.invariant_trace (P := fun ls s => s.broken = true ∧ ∀ l' ∈ ls, writesBytes l' = false) ?_ ⟨hb, nofun⟩
    · exact hi.2
    · rintro ls s l v ⟨h5, h6⟩ hs
      have hk : v.broken = true ∧ writesBytes l = false := by
        cases hs <;> simp_all [writesBytes]
      refine ⟨hk.1, fun l' hm => ?_⟩
      rcases List.mem_append.mp hm with hm | hm
      · exact h6 l' hm
      · rw [List.mem_singleton.mp hm]; exact hk.2

/-- A direct send whose first byte is all that gets out. -/
example : ∃ t, Steps (Send.Step 1024 16384) {} ([.dcall 0 [1, 2], .dinside 0] ++ .dwrite 0 [1] false :: [.stop]) t ∧ breaksOff (.dwrite 0 [1] false) = true :=
  ⟨_, .cons (.dcall _ 0 [1, 2] rfl) (.cons (.dcheckOpen _ 0 [1, 2] rfl rfl) (.cons (.dwritePart _ 0 [1, 2] [1] rfl rfl ⟨[2], rfl⟩) (.cons (.stop _) (.nil _)))), rfl⟩

end Zinx.Props
