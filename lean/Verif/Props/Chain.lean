import Verif.Lemmas.Chain

/-! # Interceptor chain: C18, C19 -/

namespace Zinx.Props

open Zinx Zinx.Chain

variable {W : Type}

/-! ## C18 -/

/-- **C18 (order of the list).** After any history of calls on a new builder the chain is: the head set last, the added
interceptors in call order, the tail set last. -/
theorem C18_chain_is_head_added_tail (ops : List (BuilderOp W)) :
    (ops.foldl Builder.step ({} : Builder W)).interceptors = (lastHead ops).toList ++ added ops ++ (lastTail ops).toList := by
  have key : ∀ (ops : List (BuilderOp W)) (b : Builder W),
      (ops.foldl Builder.step b).head = ((ops.filterMap fun | .head i => some i | _ => none).getLast?).getD b.head ∧
      (ops.foldl Builder.step b).tail = ((ops.filterMap fun | .tail i => some i | _ => none).getLast?).getD b.tail ∧
      (ops.foldl Builder.step b).body = b.body ++ added ops := by
    intro ops
    induction ops with
    | nil => intro b; simp [added]
    | cons o ops ih =>
      intro b
      obtain ⟨h1, h2, h3⟩ := ih (b.step o)
      rw [List.foldl_cons]
      cases o with
      | head i =>
        refine ⟨?_, ?_, ?_⟩
        · rw [h1, List.filterMap_cons]
          simp only [Builder.step, Builder.setHead, List.getLast?_cons, Option.getD_some]
        · rw [h2]; rfl
        · rw [h3]; rfl
      | tail i =>
        refine ⟨?_, ?_, ?_⟩
        · rw [h1]; rfl
        · rw [h2, List.filterMap_cons]
          simp only [Builder.step, Builder.setTail, List.getLast?_cons, Option.getD_some]
        · rw [h3]; rfl
      | add i =>
        refine ⟨?_, ?_, ?_⟩
        · rw [h1]; rfl
        · rw [h2]; rfl
        · rw [h3]; simp [Builder.step, Builder.add, added]
  obtain ⟨h1, h2, h3⟩ := key ops {}
  rw [Builder.interceptors_eq, h1, h2, h3, List.nil_append]
  rfl

/-- **C18 (hand-over).** For every chain, whatever the interceptors do (any number of `Proceed` calls, panics, state changes):
the first event is the call of the first interceptor with the original request and state; every `Proceed(q)` of interceptor `p`
is directly followed by the call of interceptor `p+1` (if there is one) with the same request and in the same state; and
interceptors are called in no other way. -/
theorem C18_handover (is : List (Interceptor W)) (req : IcReq) (w : W) :
    let t := (proceed is 0 req w).trace
    (is = [] → t = []) ∧
    (is ≠ [] → t[0]? = some (.enter 0 req w)) ∧
    (∀ i p q w', t[i]? = some (.proceed p q w') → p + 1 < is.length → t[i + 1]? = some (.enter (p + 1) q w')) ∧
    (∀ i p q w', t[i + 1]? = some (.enter p q w') → 0 < p ∧ p < is.length ∧ t[i]? = some (.proceed (p - 1) q w')) ∧
    (∀ (i p : Nat) (q : IcReq) (w' : W), t[i]? = some (.proceed p q w') → ∃ j q' w'', j < i ∧ t[j]? = some (.enter p q' w'')) := by
  intro t
  by_cases h : is = []
  · subst h
    have ht : t = [] := by show (proceed [] 0 req w).trace = []; rw [proceed_ge _ _ _ _ (by simp)]
    rw [ht]; simp
  · have hlen : 0 < is.length := List.length_pos_iff.mpr h
    obtain ⟨u, hu, hg⟩ := proceed_good is is.length 0 (by omega) hlen req w
    have ht : t = .enter 0 req w :: u := hu
    rw [ht]
    refine ⟨fun h' => absurd h' h, fun _ => rfl, ?_, ?_, ?_⟩
    · intro i p q w' h1 h2
      match i with
      | 0 => simp at h1
      | i + 1 =>
        simp only [List.getElem?_cons_succ] at h1 ⊢
        exact hg.proceed_then_enter i p q w' h1 h2
    · intro i p q w' h1
      simp only [List.getElem?_cons_succ] at h1
      obtain ⟨h2, h3, j, rfl, hj⟩ := hg.enter_after_proceed i p q w' h1
      exact ⟨h2, h3, by simpa using hj⟩
    · intro i p q w' h1
      match i with
      | 0 => simp at h1
      | i + 1 =>
        simp only [List.getElem?_cons_succ] at h1
        rcases hg.proceed_pos i p q w' h1 with rfl | ⟨j, q', w'', hj, hj'⟩
        · exact ⟨0, req, w, by omega, rfl⟩
        · exact ⟨j + 1, q', w'', by omega, by simpa using hj'⟩

/-- **C18 (stops).** If interceptor `p` does not proceed in an execution, none of the later interceptors is called in it. -/
theorem C18_stops_where_not_proceeding (is : List (Interceptor W)) (req : IcReq) (w : W) (p : Nat)
    (hno : ∀ q w', Event.proceed p q w' ∉ (proceed is 0 req w).trace) :
    ∀ p', p < p' → ∀ q w', Event.enter p' q w' ∉ (proceed is 0 req w).trace := by
  obtain ⟨h1, h2, h3, h4, h5⟩ := C18_handover is req w
  have key : ∀ d q w', Event.enter (p + d + 1) q w' ∉ (proceed is 0 req w).trace := by
    intro d
    induction d with
    | zero =>
      intro q w' hm
      obtain ⟨i, hi⟩ := List.getElem?_of_mem hm
      match i with
      | 0 =>
        by_cases h : is = []
        · rw [h1 h] at hi; simp at hi
        · rw [h2 h] at hi; simp at hi
      | i + 1 =>
        obtain ⟨_, _, h⟩ := h4 i _ q w' hi
        exact hno q w' (List.mem_of_getElem? h)
    | succ d ih =>
      intro q w' hm
      obtain ⟨i, hi⟩ := List.getElem?_of_mem hm
      match i with
      | 0 =>
        by_cases h : is = []
        · rw [h1 h] at hi; simp at hi
        · rw [h2 h] at hi; simp at hi
      | i + 1 =>
        obtain ⟨_, _, h⟩ := h4 i _ q w' hi
        obtain ⟨j, q', w'', _, hj⟩ := h5 i _ q w' h
        exact ih q' w'' (List.mem_of_getElem? hj)
  intro p' hp q w'
  have : p' = p + (p' - p - 1) + 1 := by omega
  rw [this]
  exact key _ q w'

/-- **C18 (once).** If every interceptor proceeds at most once, the interceptors called are numbers 0, 1, 2, … in this order up to
some point, each once. If every interceptor proceeds exactly once, all are called, each once, in list order. -/
theorem C18_each_once_in_order (is : List (Interceptor W)) (req : IcReq) (w : W) :
    ((∀ i ∈ is, ∀ q, AtMostOnce (i q)) →
      ∃ m, m ≤ is.length ∧ enters (proceed is 0 req w).trace = List.range m) ∧
    ((∀ i ∈ is, ∀ q, ExactlyOnce (i q)) → enters (proceed is 0 req w).trace = List.range is.length) := by
  refine ⟨fun h => ?_, fun h => ?_⟩
  · obtain ⟨m, hm, hm'⟩ := enters_atMostOnce is h is.length 0 (by omega) req w
    exact ⟨m, by omega, by rw [hm', List.range_eq_range']⟩
  · rw [enters_exactlyOnce is h is.length 0 (by omega) req w, List.range_eq_range', Nat.sub_zero]

/-- An interceptor that leaves its mark in the state (a list of numbers) and proceeds. -/
def passing (n : Nat) : Interceptor (List Nat) := fun q =>
  .act (fun w => w ++ [n]) fun _ => .proceed q fun
    | some r => .ret r
    | none => .panic

/-- An interceptor that leaves its mark and answers without proceeding. -/
def blocking (n : Nat) : Interceptor (List Nat) := fun _ => .act (fun w => w ++ [n]) fun _ => .ret .nil

/-- The hypotheses of the `ExactlyOnce` and `AtMostOnce` parts are met by ordinary interceptors. -/
example : (∀ i ∈ [passing 1, passing 2, msgHandleIntercept fun p w => w ++ [100 + p]], ∀ q, ExactlyOnce (i q)) := by
  intro i hi q
  simp only [List.mem_cons, List.not_mem_nil, or_false] at hi
  rcases hi with rfl | rfl | rfl
  · intro w r; cases r <;> trivial
  · intro w r; cases r <;> trivial
  · cases q with
    | nil => intro r; cases r <;> trivial
    | other v => intro r; cases r <;> trivial
    | request p => intro w r; cases r <;> trivial

example : (proceed [passing 1, passing 2, msgHandleIntercept fun p w => w ++ [100 + p]] 0 (.request 7) []).world = [1, 2, 107] := by
  simp [proceed, exec, passing, msgHandleIntercept]

/-- The hypothesis of the stopping theorem is met at `p = 1` here, and interceptor 2 indeed does not run. -/
example : (proceed [passing 1, blocking 2, passing 3] 0 (.request 7) []).world = [1, 2] ∧
    ∀ q w', Event.proceed 1 q w' ∉ (proceed [passing 1, blocking 2, passing 3] 0 (.request 7) []).trace := by
  constructor <;> simp [proceed, exec, passing, blocking]

example : (([.add (passing 1), .head (some (passing 0)), .add (passing 2), .tail (some (passing 9))] :
    List (BuilderOp (List Nat))).foldl Builder.step {}).interceptors = [passing 0, passing 1, passing 2, passing 9] := rfl

/-! What the chain answers. -/

mutual
/-- `Proceed` with these interceptors left answers `r` and leaves the state `w'`. -/
inductive Answers : List (Interceptor W) → IcReq → W → Option IcReq → W → Prop where
  | nil (req : IcReq) (w : W) : Answers [] req w (some req) w
  | cons (i : Interceptor W) (is : List (Interceptor W)) (req : IcReq) (w w' : W) (r : Option IcReq) : Body is (i req) w r w' → Answers (i :: is) req w r w'

/-- The body of an interceptor, with these interceptors after it, returns `r` (`none`: it panics). -/
inductive Body : List (Interceptor W) → Code W → W → Option IcReq → W → Prop where
  | ret (is : List (Interceptor W)) (r : IcReq) (w : W) : Body is (.ret r) w (some r) w
  | panic (is : List (Interceptor W)) (w : W) : Body is .panic w none w
  | act (is : List (Interceptor W)) (f : W → W) (k : W → Code W) (w w' : W) (r : Option IcReq) : Body is (k (f w)) (f w) r w' → Body is (.act f k) w r w'
  | proceed (is : List (Interceptor W)) (q : IcReq) (k : Option IcReq → Code W) (w w1 w' : W) (a r : Option IcReq) :
      Answers is q w a w1 → Body is (k a) w1 r w' → Body is (.proceed q k) w r w'
end

/-- **C18 (answers).** Each interceptor's call of `Proceed` returns what the next one returned (the last: the request it passed), and the chain returns what the first one returned. -/
theorem C18_answers (is : List (Interceptor W)) (req : IcReq) (w : W) :
    Answers is req w (proceed is 0 req w).resp (proceed is 0 req w).world := by
  have key : ∀ (n pos : Nat), n = is.length - pos → ∀ req w, Answers (is.drop pos) req w (proceed is pos req w).resp (proceed is pos req w).world := by
    intro n
    induction n with
    | zero =>
      intro pos hn req w
      rw [List.drop_eq_nil_of_le (by omega), proceed, dif_neg (by omega)]
      exact .nil _ _
    | succ n ih =>
      intro pos hn req w
      have hlt : pos < is.length := by omega
      rw [List.drop_eq_getElem_cons hlt, proceed, dif_pos hlt]
      refine .cons _ _ _ _ _ _ ?_
      have body : ∀ (c : Code W) (w : W), Body (is.drop (pos + 1)) c w (exec pos (fun q w' => proceed is (pos + 1) q w') c w).resp
          (exec pos (fun q w' => proceed is (pos + 1) q w') c w).world := by
        intro c
        induction c with
        | ret r => exact fun w => .ret _ _ _
        | panic => exact fun w => .panic _ _
        | act f k ihk => exact fun w => .act _ _ _ _ _ _ (ihk (f w) (f w))
        | proceed q k ihk => exact fun w => .proceed _ _ _ _ _ _ _ _ (ih (pos + 1) (by omega) q w) (ihk _ _)
      exact body _ _
  exact key _ 0 rfl req w

/-- **C18 (answers).** There is only one such answer. -/
theorem C18_answer_unique : (∀ (is : List (Interceptor W)) (req : IcReq) (w : W) (r r' : Option IcReq) (w₁ w₂ : W), Answers is req w r w₁ → Answers is req w r' w₂ → r = r' ∧ w₁ = w₂) := by
  intro is
  induction is with
  | nil =>
    intro req w r r' w₁ w₂ h1 h2
    cases h1; cases h2
    exact ⟨rfl, rfl⟩
  | cons i is ih =>
    have body : ∀ (c : Code W) (w : W) (r r' : Option IcReq) (w₁ w₂ : W), Body is c w r w₁ → Body is c w r' w₂ → r = r' ∧ w₁ = w₂ := by
      intro c
      induction c with
      | ret r => intro w r r' w₁ w₂ h1 h2; cases h1; cases h2; exact ⟨rfl, rfl⟩
      | panic => intro w r r' w₁ w₂ h1 h2; cases h1; cases h2; exact ⟨rfl, rfl⟩
      | act f k ihk => intro w r r' w₁ w₂ h1 h2; cases h1 with | act _ _ _ _ _ _ h1 => cases h2 with | act _ _ _ _ _ _ h2 => exact ihk _ _ _ _ _ _ h1 h2
      | proceed q k ihk =>
        intro w r r' w₁ w₂ h1 h2
        cases h1 with
        | proceed _ _ _ _ _ _ _ _ a1 b1 =>
          cases h2 with
          | proceed _ _ _ _ _ _ _ _ a2 b2 =>
            obtain ⟨e1, e2⟩ := ih _ _ _ _ _ _ a1 a2
            subst e1 e2
            exact ihk _ _ _ _ _ _ b1 b2
    intro req w r r' w₁ w₂ h1 h2
    cases h1 with | cons _ _ _ _ _ _ h1 => cases h2 with | cons _ _ _ _ _ _ h2 => exact body _ _ _ _ _ _ h1 h2

/-- An interceptor that replaces the answer of the rest: the chain gives its own. -/
example : (proceed [fun q => Code.proceed q fun _ => .ret (.other 5), fun q => .ret q] 0 (.request 1) ()).resp = some (.other 5) := by
  simp [proceed, exec]

/-- **C18 (`ProceedWithIMessage`).** With a message and a response, the response is set on the request before the next interceptor runs with that same request; without one of them the next
interceptor just runs. -/
theorem C18_with_message (setResponse : Nat → IcReq → W → W) (i : Interceptor W) (is : List (Interceptor W)) (p : Nat) (hasMessage : Bool) (response : IcReq) (k : Option IcReq → Code W)
    (pos : Nat) (w : W) (hi : is[pos + 1]? = some i) :
    let w' := if hasMessage = true ∧ response ≠ .nil then setResponse p response w else w
    (exec pos (fun q w => proceed is (pos + 1) q w) (proceedWithIMessage setResponse (.request p) hasMessage response k) w).trace[0]? = some (.proceed pos (.request p) w') ∧
    (exec pos (fun q w => proceed is (pos + 1) q w) (proceedWithIMessage setResponse (.request p) hasMessage response k) w).trace[1]? = some (.enter (pos + 1) (.request p) w') := by
  have hlt : pos + 1 < is.length := (List.getElem?_eq_some_iff.mp hi).1
  intro w'
  by_cases h : hasMessage = false ∨ response = .nil
  · have hw : w' = w := by
      rcases h with h | h <;> simp [w', h]
    simp only [proceedWithIMessage, h, if_true, exec, hw]
    rw [proceed, dif_pos hlt]
    exact ⟨rfl, rfl⟩
  · have hw : w' = setResponse p response w := by
      simp only [not_or] at h
      simp [w', h]
    simp only [proceedWithIMessage, h, if_false, exec, hw]
    rw [proceed, dif_pos hlt]
    exact ⟨rfl, rfl⟩

example : [fun q => Code.ret q, fun q => .ret (W := Nat) q][0 + 1]? = some (fun q => Code.ret q) := rfl

/-! ## C19 -/

/-- **C19 (server).** On a server, after any history of `AddInterceptor`, `SetDecoder` and `Start` calls in which some `Start` ran with a
decoder, the chain is: exactly one decoder, then all user interceptors in the order they were added (before or after
`Start`), then the message handler. -/
theorem C19_server_chain (dec handler : Interceptor W) (ops : List (ApiOp W)) (d : Interceptor W)
    (pre post : List (ApiOp W)) (hops : ops = pre ++ .start :: post)
    (hd : (pre.foldl Endpoint.serverStep (Endpoint.new dec handler)).decoder = some d)
    (hlast : ∀ o ∈ post, ¬ ∃ x, o = ApiOp.setDecoder x) :
    (ops.foldl Endpoint.serverStep (Endpoint.new dec handler)).builder.interceptors =
      d :: (userAdded ops ++ [handler]) := by
  have inv : ∀ (ops : List (ApiOp W)) (e : Endpoint W),
      (ops.foldl Endpoint.serverStep e).builder.body = e.builder.body ++ userAdded ops ∧
      (ops.foldl Endpoint.serverStep e).builder.tail = e.builder.tail := by
    intro ops
    induction ops with
    | nil => intro e; simp [userAdded]
    | cons o ops ih =>
      intro e
      rw [List.foldl_cons]
      obtain ⟨h1, h2⟩ := ih (e.serverStep o)
      rw [h1, h2]
      cases o with
      | addInterceptor i => simp [Endpoint.serverStep, Builder.add, userAdded]
      | setDecoder x => simp [Endpoint.serverStep, userAdded]
      | start => simp only [Endpoint.serverStep]; split <;> simp [userAdded, Builder.setHead]
  have keep : ∀ (post : List (ApiOp W)) (e : Endpoint W), (∀ o ∈ post, ¬ ∃ x, o = ApiOp.setDecoder x) →
      e.decoder = some d → e.builder.head = some d → (post.foldl Endpoint.serverStep e).builder.head = some d := by
    intro post
    induction post with
    | nil => intro e _ _ h; exact h
    | cons o post ih =>
      intro e h h1 h2
      rw [List.foldl_cons]
      have hh := fun o ho => h o (List.mem_cons_of_mem _ ho)
      cases o with
      | addInterceptor i => exact ih _ hh h1 h2
      | setDecoder x => exact absurd ⟨x, rfl⟩ (h _ List.mem_cons_self)
      | start =>
        apply ih _ hh
        · simp only [Endpoint.serverStep, h1]
        · simp only [Endpoint.serverStep, h1, Builder.setHead]
  have hhead : (ops.foldl Endpoint.serverStep (Endpoint.new dec handler)).builder.head = some d := by
    rw [hops, List.foldl_append, List.foldl_cons]
    apply keep post _ hlast
    · simp only [Endpoint.serverStep, hd]
    · simp only [Endpoint.serverStep, hd, Builder.setHead]
  obtain ⟨h1, h2⟩ := inv ops (Endpoint.new dec handler)
  rw [Builder.interceptors_eq, hhead, h1, h2]
  simp [Endpoint.new]

/-- **C19 (server, executions).** In every execution of such a chain the decoder is called first and exactly once, with the
request as read from the network; every other interceptor is called later. -/
theorem C19_server_decoder_first_and_once (d : Interceptor W) (rest : List (Interceptor W)) (req : IcReq) (w : W) :
    let t := (proceed (d :: rest) 0 req w).trace
    t[0]? = some (.enter 0 req w) ∧ ∀ i p q w', t[i + 1]? = some (.enter p q w') → p ≠ 0 := by
  obtain ⟨_, h2, _, h4, _⟩ := C18_handover (d :: rest) req w
  exact ⟨h2 (by simp), fun i p q w' h => by have := (h4 i p q w' h).1; omega⟩

/-- A decoder leaving mark 0. -/
def markDecoder : Interceptor (List Nat) := passing 0

def markHandler : Interceptor (List Nat) := msgHandleIntercept fun p w => w ++ [100 + p]

example : (([.addInterceptor (passing 1), .start, .addInterceptor (passing 2)] : List (ApiOp (List Nat))).foldl
    Endpoint.serverStep (Endpoint.new markDecoder markHandler)).builder.interceptors =
      [markDecoder, passing 1, passing 2, markHandler] :=
  C19_server_chain markDecoder markHandler _ markDecoder [.addInterceptor (passing 1)] [.addInterceptor (passing 2)] rfl rfl
    (by simp)

/-- **C19 (client, partial).** On a client the same holds for interceptors added after the only `Start`. What is missing: interceptors
added before `Start`, and calling `Start` again (see the refutations). -/
theorem C19_client_partial (dec handler : Interceptor W) (pre post : List (ApiOp W)) (d : Interceptor W)
    (hpre : ∀ o ∈ pre, ∃ x, o = ApiOp.setDecoder x)
    (hd : (pre.foldl Endpoint.clientStep (Endpoint.new dec handler)).decoder = some d)
    (hpost : ∀ o ∈ post, o ≠ ApiOp.start) :
    ((pre ++ .start :: post).foldl Endpoint.clientStep (Endpoint.new dec handler)).builder.interceptors =
      d :: (userAdded post ++ [handler]) := by
  have inv1 : ∀ (ops : List (ApiOp W)) (e : Endpoint W), (∀ o ∈ ops, ∃ x, o = ApiOp.setDecoder x) →
      (ops.foldl Endpoint.clientStep e).builder = e.builder := by
    intro ops
    induction ops with
    | nil => intro e _; rfl
    | cons o ops ih =>
      intro e h
      obtain ⟨x, rfl⟩ := h o List.mem_cons_self
      rw [List.foldl_cons, ih _ (fun o ho => h o (List.mem_cons_of_mem _ ho))]; rfl
  have inv2 : ∀ (ops : List (ApiOp W)) (e : Endpoint W), (∀ o ∈ ops, o ≠ ApiOp.start) →
      (ops.foldl Endpoint.clientStep e).builder = { e.builder with body := e.builder.body ++ userAdded ops } := by
    intro ops
    induction ops with
    | nil => intro e _; simp [userAdded]
    | cons o ops ih =>
      intro e h
      rw [List.foldl_cons, ih _ (fun o ho => h o (List.mem_cons_of_mem _ ho))]
      cases o with
      | addInterceptor i => simp [Endpoint.clientStep, Builder.add, userAdded]
      | setDecoder x => simp [Endpoint.clientStep, userAdded]
      | start => exact absurd rfl (h _ List.mem_cons_self)
  rw [List.foldl_append, List.foldl_cons, inv2 _ _ hpost, Builder.interceptors_eq]
  simp only [Endpoint.clientStep, hd, inv1 pre _ hpre]
  simp [Endpoint.new, Builder.add]

example : (([.start, .addInterceptor (passing 2)] : List (ApiOp (List Nat))).foldl
    Endpoint.clientStep (Endpoint.new markDecoder markHandler)).builder.interceptors = [markDecoder, passing 2, markHandler] :=
  C19_client_partial markDecoder markHandler [] [.addInterceptor (passing 2)] markDecoder (by simp) rfl (by simp)

/-- What the calls add to the chain of a client whose decoder is `d` at first: each interceptor when it is added, and at each `Start` the decoder set at that time. -/
def clientAdds (d : Option (Interceptor W)) : List (ApiOp W) → List (Interceptor W)
  | [] => []
  | .addInterceptor i :: ops => i :: clientAdds d ops
  | .setDecoder x :: ops => clientAdds x ops
  | .start :: ops => d.toList ++ clientAdds d ops

/-- **C19 (client, exactly).** After any history of calls the chain of a client is: the interceptors in the order they were added, with the decoder in between, once at the place of each `Start`; then the
message handler. So interceptors run after the decoder exactly if they were added after the first `Start`, and the decoder runs as often as the client was started. -/
theorem C19_client_exact_partial (dec handler : Interceptor W) (ops : List (ApiOp W)) :
    (ops.foldl Endpoint.clientStep (Endpoint.new dec handler)).builder.interceptors = clientAdds (some dec) ops ++ [handler] := by
  have inv : ∀ (ops : List (ApiOp W)) (e : Endpoint W),
      (ops.foldl Endpoint.clientStep e).builder = { e.builder with body := e.builder.body ++ clientAdds e.decoder ops } := by
    intro ops
    induction ops with
    | nil => intro e; simp [clientAdds]
    | cons o ops ih =>
      intro e
      rw [List.foldl_cons, ih]
      cases o with
      | addInterceptor i => simp [Endpoint.clientStep, Builder.add, clientAdds]
      | setDecoder x => simp [Endpoint.clientStep, clientAdds]
      | start => cases hd : e.decoder <;> simp [Endpoint.clientStep, clientAdds, hd, Builder.add]
  rw [inv, Builder.interceptors_eq]
  simp [Endpoint.new]

example : (([.addInterceptor (passing 1), .start, .addInterceptor (passing 2), .setDecoder none, .start] : List (ApiOp (List Nat))).foldl
    Endpoint.clientStep (Endpoint.new markDecoder markHandler)).builder.interceptors = [passing 1, markDecoder, passing 2, markHandler] :=
  C19_client_exact_partial markDecoder markHandler _

/-- **C19 refuted (client, order).** A client interceptor added before `Start` — the usual place — runs before the decoder: here
the interceptor (mark 1) leaves its mark before the decoder (mark 0). -/
theorem C19_refuted_client_order :
    ((([.addInterceptor (passing 1), .start] : List (ApiOp (List Nat))).foldl
      Endpoint.clientStep (Endpoint.new markDecoder markHandler)).builder.execute (.request 7) []).world = [1, 0, 107] := by
  simp [Endpoint.clientStep, Endpoint.new, Builder.add, Builder.execute, Builder.interceptors, proceed, exec, passing, markDecoder,
    markHandler, msgHandleIntercept]

/-- **C19 refuted (client, twice).** A client started twice (for example to reconnect) decodes every message twice. -/
theorem C19_refuted_client_restart :
    ((([.start, .start] : List (ApiOp (List Nat))).foldl
      Endpoint.clientStep (Endpoint.new markDecoder markHandler)).builder.execute (.request 7) []).world = [0, 0, 107] := by
  simp [Endpoint.clientStep, Endpoint.new, Builder.add, Builder.execute, Builder.interceptors, proceed, exec, passing, markDecoder,
    markHandler, msgHandleIntercept]

end Zinx.Props
