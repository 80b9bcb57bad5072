import Verif.Lemmas.LoginFlow

/-! # Callbacks of a connection are put and begun in the order of its requests, for C149 -/

namespace Zinx.Login

open Zinx.AsyncHome (Item HPc SPc upd)
open Zinx.Props (FixedPool HomeInv At DutyInv OnceInv once_inv isPush got_inv)

/-- An operation has ended and its callback has not been put: its handler is under way. -/
theorem lag {cfg : Cfg} (hk : Keyed cfg) (hd : FixedPool cfg.home) {ls : List Label} {s : State} (h : Steps (Step cfg) (init cfg) ls s) {c id : Nat} (h1 : (s.home.res (cfg.key c id)).op = .done)
    (h2 : (ls.filterMap (inner cfg)).countP (isPush (cfg.key c id)) = 0) : ∃ g, cur s.home g = some (.msg c id) := by
  obtain ⟨hdu, hput⟩ := put_inv hd (inner_steps h) (cfg.key c id)
  have at_pc : ∀ pc : HPc, pc.result = some (cfg.key c id) → At s.home.worker pc → ∃ g, cur s.home g = some (.msg c id) := by
    rintro pc hr ⟨g, it, hw⟩
    obtain ⟨c', id', e1, e2, _⟩ := pc_inv h g it pc _ hw hr
    obtain ⟨rfl, rfl⟩ := hk.inj _ _ _ _ e2
    subst e1
    exact ⟨g, cur_some.mpr ⟨_, hw⟩⟩
  have hret := hdu.ret (by rw [h1]; nofun) (by rw [h1]; nofun) (by rw [h1]; nofun)
  rcases reg_inv hk hd h c id (by rw [h1]; nofun) with hf | ⟨g, hg, _⟩
  · cases hfn : (s.home.res (cfg.key c id)).fn with
    | false => exact at_pc _ rfl (hdu.reg hf hfn)
    | true =>
      cases hc : (s.home.res (cfg.key c id)).called with
      | false =>
        rcases hdu.duty hret hfn hc with e | e | e | e | e
        · rw [h1] at e; cases e
        · rw [h1] at e; cases e
        · rw [h1] at e; cases e
        · exact at_pc _ rfl e
        · exact at_pc _ rfl e
      | true =>
        rcases hput hc with e | ⟨x, e⟩ | ⟨x, e⟩
        · omega
        · rw [h1] at e; cases e
        · exact at_pc _ rfl e
  · exact ⟨g, hg⟩

theorem push_mem {cfg : AsyncHome.Cfg} {c k : Nat} (hc : cfg.conn k = c) (ls : List AsyncHome.Label) : k ∈ ls.filterMap (pushKey cfg c) ↔ 0 < ls.countP (isPush k) := by
  rw [List.mem_filterMap, List.countP_pos_iff]
  constructor
  · rintro ⟨l, hm, h⟩
    refine ⟨l, hm, ?_⟩
    cases l <;> simp only [pushKey, isPush] at h ⊢ <;> first | (cases h; done) | (split at h <;> simp_all)
  · rintro ⟨l, hm, h⟩
    refine ⟨l, hm, ?_⟩
    cases l <;> simp only [pushKey, isPush] at h ⊢ <;> first | (cases h; done) | simp_all

/-- What is put next. -/
theorem push_next {cfg : Cfg} (hk : Keyed cfg) (hd : FixedPool cfg.home) {ls : List Label} {s : State} (h : Steps (Step cfg) (init cfg) ls s) {c id p : Nat}
    (hp : (ls.filterMap (inner cfg)).filterMap (pushKey cfg.home c) = (List.range p).map (cfg.key c)) (h0 : (ls.filterMap (inner cfg)).countP (isPush (cfg.key c id)) = 0)
    (h1 : (s.home.res (cfg.key c id)).op ≠ .notStarted) (h2 : (s.home.res (cfg.key c id)).op ≠ .queued) : id = p := by
  have hmem : ∀ j, j < p ↔ 0 < (ls.filterMap (inner cfg)).countP (isPush (cfg.key c j)) := by
    intro j
    rw [← push_mem (hk.conn c j), hp, List.mem_map]
    constructor
    · exact fun hj => ⟨j, List.mem_range.mpr hj, rfl⟩
    · rintro ⟨j', hj', e⟩
      rw [← (hk.inj _ _ _ _ e).2]
      exact List.mem_range.mp hj'
  have h3 : p ≤ id := Nat.le_of_not_lt fun hlt => by have := (hmem id).mp hlt; omega
  rcases Nat.lt_or_eq_of_le h3 with h4 | h4
  · exfalso
    have h5 := ops_before hk hd h h4 h1 h2
    have h6 : (ls.filterMap (inner cfg)).countP (isPush (cfg.key c p)) = 0 := by
      have := (hmem p).mpr
      omega
    obtain ⟨g, hg⟩ := lag hk hd h h5 h6
    have hm := (msg_inv hd h c).work g p hg
    obtain ⟨_, d, hq⟩ := ops_inv hk hd h c
    have h7 := (hq.started id).mp h1
    by_cases e : s.stage g = .start
    · have := hm.2.1 e; omega
    · have := hm.2.2 e; omega
  · exact h4.symm

theorem push_inv {cfg : Cfg} (hk : Keyed cfg) (hd : FixedPool cfg.home) {ls : List Label} {s : State} (h : Steps (Step cfg) (init cfg) ls s) (c : Nat) :
    ∃ p, (ls.filterMap (inner cfg)).filterMap (pushKey cfg.home c) = (List.range p).map (cfg.key c) := by
  refine (h.invariant_trace (P := fun ls s => Steps (Step cfg) (init cfg) ls s ∧ ∃ p, (ls.filterMap (inner cfg)).filterMap (pushKey cfg.home c) = (List.range p).map (cfg.key c)) ?_ ⟨.nil _, 0, rfl⟩).2
  rintro ls s l t ⟨hr, p, hp⟩ hs
  refine ⟨hr.snoc hs, ?_⟩
  have same : (inner cfg l).bind (pushKey cfg.home c) = none → ∃ p, ((ls ++ [l]).filterMap (inner cfg)).filterMap (pushKey cfg.home c) = (List.range p).map (cfg.key c) := by
    intro e
    refine ⟨p, ?_⟩
    rw [← hp, List.filterMap_append, List.filterMap_append]
    cases hl : inner cfg l with
    | none => simp [hl]
    | some l' => rw [hl] at e; simp only [Option.bind_some] at e; simp [hl, e]
  have more : ∀ id, (inner cfg l).bind (pushKey cfg.home c) = some (cfg.key c id) → id = p → ∃ p, ((ls ++ [l]).filterMap (inner cfg)).filterMap (pushKey cfg.home c) = (List.range p).map (cfg.key c) := by
    intro id e e2
    refine ⟨p + 1, ?_⟩
    rw [List.filterMap_append, List.filterMap_append, hp, List.range_succ, List.map_append]
    cases hl : inner cfg l with
    | none => rw [hl] at e; cases e
    | some l' => rw [hl] at e; simp only [Option.bind_some] at e; simp [hl, e, e2]
  cases hs with
  | quiet hq h =>
    rename_i l' _
    cases l' with
    | push g k x =>
      by_cases e : cfg.home.conn k = c
      · obtain ⟨it, hw⟩ : ∃ it, s.home.worker g = .busy it (.send k (some x)) := by
          cases h
          exact ⟨_, by assumption⟩
        obtain ⟨c', id, _, e2, _⟩ := pc_inv hr g it _ k hw rfl
        subst e2
        rw [hk.conn] at e
        subst e
        have h3 := ((once_inv (inner_steps hr) _).worker g it _ hw).1
        have hg := got_inv hr
        obtain ⟨h4, h5, _⟩ := hg.ret _ (hg.called _ (hg.send g it _ _ hw))
        exact more id (by simp [inner, pushKey, hk.conn]) (push_next hk hd hr hp h3 h4 h5)
      · exact same (by simp [inner, pushKey, e])
    | opPush k x => cases hq
    | _ => exact same rfl
  | opPush c' id g rest h0 h =>
    by_cases e : c' = c
    · subst e
      obtain ⟨⟨x, v1⟩, _⟩ := opView_step h
      have h3 := ((once_inv (inner_steps hr) _).op x v1).1
      exact more id (by simp [inner, pushKey, hk.conn]) (push_next hk hd hr hp h3 (by rw [v1]; nofun) (by rw [v1]; nofun))
    · exact same (by simp [inner, pushKey, hk.conn, e])
  | _ => exact same rfl

/-! ## Callbacks send their replies in the order in which they were begun -/

/-- The message of connection `c` that is answered, or would have been had there been a result. -/
def answered (c : Nat) : Label → Option Nat
  | .reply _ c' id _ => if c' = c then some id else none
  | .silent _ c' id => if c' = c then some id else none
  | _ => none

/-- A callback of connection `c` has been taken and has not answered. -/
def Waits (cfg : Cfg) (c : Nat) (s : State) (g k : Nat) : Prop := cur s.home g = some (.call k) ∧ cfg.home.conn k = c ∧ s.stage g = .start

structure TakeInv (cfg : Cfg) (c : Nat) (ls : List Label) (s : State) : Prop where
  work : ∀ g k, Waits cfg c s g k → (ls.filterMap (inner cfg)).filterMap (takeKey cfg.home c) = (ls.filterMap (answered c)).map (cfg.key c) ++ [k]
  idle : (∀ g k, ¬ Waits cfg c s g k) → (ls.filterMap (inner cfg)).filterMap (takeKey cfg.home c) = (ls.filterMap (answered c)).map (cfg.key c)

theorem TakeInv.same {cfg : Cfg} {c : Nat} {ls : List Label} {s t : State} {l : Label} (hi : TakeInv cfg c ls s) (h1 : (inner cfg l).bind (takeKey cfg.home c) = none) (h2 : answered c l = none)
    (h3 : ∀ g k, Waits cfg c t g k ↔ Waits cfg c s g k) : TakeInv cfg c (ls ++ [l]) t := by
  have e1 : ((ls ++ [l]).filterMap (inner cfg)).filterMap (takeKey cfg.home c) = (ls.filterMap (inner cfg)).filterMap (takeKey cfg.home c) := by
    rw [List.filterMap_append, List.filterMap_append]
    cases hl : inner cfg l with
    | none => simp [hl]
    | some l' => rw [hl] at h1; simp only [Option.bind_some] at h1; simp [hl, h1]
  have e2 : (ls ++ [l]).filterMap (answered c) = ls.filterMap (answered c) := by simp [List.filterMap_append, h2]
  constructor
  · intro g k hw; rw [e1, e2]; exact hi.work g k ((h3 g k).mp hw)
  · intro hn; rw [e1, e2]; exact hi.idle fun g k hw => hn g k ((h3 g k).mpr hw)

theorem waits_one {cfg : Cfg} {c g g' k k' : Nat} {s : State} (hh : HomeInv cfg.home s.home) (h : Waits cfg c s g k) (h' : Waits cfg c s g' k') : g = g' :=
  cur_one hh h.1 h'.1 (by simp only [Item.owner]; rw [h.2.1, h'.2.1])

/-- The callback that has been begun answered. -/
theorem TakeInv.answer {cfg : Cfg} (hk : Keyed cfg) {c g c' id : Nat} {ls : List Label} {s : State} {l : Label} (hh : HomeInv cfg.home s.home) (hi : TakeInv cfg c ls s) (h1 : inner cfg l = none)
    (h2 : answered c l = if c' = c then some id else none) (hw : s.home.worker g = .busy (.call (cfg.key c' id)) .code) (h0 : s.stage g = .start) : TakeInv cfg c (ls ++ [l]) { s with stage := upd s.stage g .answered } := by
  have hcur : cur s.home g = some (.call (cfg.key c' id)) := cur_some.mpr ⟨_, hw⟩
  by_cases e : c' = c
  · subst e
    have hwt : Waits cfg c' s g (cfg.key c' id) := ⟨hcur, hk.conn _ _, h0⟩
    have hno : ∀ g' k', ¬ Waits cfg c' { s with stage := upd s.stage g .answered } g' k' := by
      rintro g' k' ⟨a, b, d⟩
      dsimp only at a d
      by_cases e : g' = g
      · rw [upd, if_pos e] at d; cases d
      · rw [upd, if_neg e] at d
        exact e (waits_one hh hwt ⟨a, b, d⟩).symm
    refine ⟨fun g' k' h => absurd h (hno g' k'), fun _ => ?_⟩
    have := hi.work g _ hwt
    rw [List.filterMap_append, List.filterMap_append, List.filterMap_append, this]
    simp [h1, h2]
  · refine hi.same (by rw [h1]; rfl) (by rw [h2, if_neg e]) ?_
    intro g' k'
    unfold Waits
    dsimp only
    by_cases e' : g' = g
    · subst e'
      rw [hcur]
      constructor
      · rintro ⟨a, b, _⟩; cases a; rw [hk.conn] at b; exact absurd b e
      · rintro ⟨a, b, _⟩; cases a; rw [hk.conn] at b; exact absurd b e
    · rw [upd, if_neg e']

theorem take_inv {cfg : Cfg} (hk : Keyed cfg) (hd : FixedPool cfg.home) {ls : List Label} {s : State} (h : Steps (Step cfg) (init cfg) ls s) (c : Nat) : TakeInv cfg c ls s := by
  refine (h.invariant_trace (P := fun ls s => Steps (Step cfg) (init cfg) ls s ∧ TakeInv cfg c ls s) ?_ ⟨.nil _, ?_⟩).2
  · rintro ls s l t ⟨hr, hi⟩ hs
    refine ⟨hr.snoc hs, ?_⟩
    have hh := home_inv hd hr
    have like : ∀ {t : State} {l : Label}, (inner cfg l).bind (takeKey cfg.home c) = none → answered c l = none → cur t.home = cur s.home → t.stage = s.stage → TakeInv cfg c (ls ++ [l]) t :=
      fun h1 h2 h3 h4 => hi.same h1 h2 (fun g k => by unfold Waits; rw [h3, h4])
    /- the handler of a message goes on -/
    have step : ∀ {t : State} {l : Label} {g c' id : Nat} {x : Stage}, (inner cfg l).bind (takeKey cfg.home c) = none → answered c l = none → cur t.home = cur s.home → cur s.home g = some (.msg c' id) → t.stage = upd s.stage g x →
        TakeInv cfg c (ls ++ [l]) t := by
      intro t l g c' id x h1 h2 h3 h4 h5
      refine hi.same h1 h2 fun g' k => ?_
      unfold Waits
      rw [h3, h5]
      by_cases e : g' = g
      · subst e
        rw [h4]
        constructor <;> (rintro ⟨a, _⟩; cases a)
      · rw [upd, if_neg e]
    have fin : ∀ {t : State} {l : Label} {g : Nat}, (inner cfg l).bind (takeKey cfg.home c) = none → answered c l = none → cur t.home = upd (cur s.home) g none → s.stage g ≠ .start → t.stage = s.stage → TakeInv cfg c (ls ++ [l]) t := by
      intro t l g h1 h2 h3 h4 h5
      refine hi.same h1 h2 fun g' k => ?_
      unfold Waits
      rw [h3, h5]
      by_cases e : g' = g
      · subst e
        exact ⟨fun h => absurd h.2.2 h4, fun h => absurd h.2.2 h4⟩
      · rw [upd, if_neg e]
    cases hs with
    | quiet hq h =>
      rename_i l' _
      have hv := view_step hd h hh
      cases l' <;> first | (cases hq; done) | exact hv.elim | exact like rfl rfl hv.2.2.2 rfl | exact like rfl rfl hv.2.2 rfl
    | arriveOld c o l1 l2 _ _ h =>
      obtain ⟨_, _, _, _, hv⟩ := view_step hd h hh
      exact like rfl rfl hv rfl
    | arriveNew c h =>
      obtain ⟨_, _, _, _, hv⟩ := view_step hd h hh
      exact like rfl rfl hv rfl
    | take g it h =>
      rename_i h2
      obtain ⟨rest, hv1, _, _, hv0, hv⟩ := view_step hd h hh
      have other : ∀ g', g' ≠ g → ∀ k, Waits cfg c { s with home := h2, stage := upd s.stage g .start } g' k ↔ Waits cfg c s g' k := by
        intro g' e k
        unfold Waits
        dsimp only
        rw [hv, upd, upd, if_neg e, if_neg e]
      cases it with
      | msg c' id =>
        refine hi.same rfl rfl fun g' k => ?_
        by_cases e : g' = g
        · subst e
          unfold Waits
          dsimp only
          rw [hv, upd, if_pos rfl, hv0]
          constructor <;> (rintro ⟨a, _⟩; cases a)
        · exact other g' e k
      | call k0 =>
        by_cases e : cfg.home.conn k0 = c
        · have hno : ∀ g' k', ¬ Waits cfg c s g' k' := by
            rintro g' k' ⟨a, b, _⟩
            obtain ⟨pc, a⟩ := cur_some.mp a
            have h1 := (hh.busy g' _ pc a).1
            have h2 := (hh.queued g (.call k0) (by rw [hv1]; simp)).1
            simp only [Item.owner] at h1 h2
            rw [b] at h1
            rw [e, h1] at h2
            cases h2
            exact cur_none.mp hv0 _ _ a
          have hT := hi.idle hno
          have e1 : ((ls ++ [Label.take g (.call k0)]).filterMap (inner cfg)).filterMap (takeKey cfg.home c) = (ls.filterMap (answered c)).map (cfg.key c) ++ [k0] := by
            rw [List.filterMap_append, List.filterMap_append, hT]
            simp [inner, takeKey, e]
          have e2 : (ls ++ [Label.take g (.call k0)]).filterMap (answered c) = ls.filterMap (answered c) := by simp [List.filterMap_append, answered]
          constructor
          · intro g' k' hw
            rw [e1, e2]
            by_cases e' : g' = g
            · have := hw.1
              dsimp only at this
              rw [hv, upd, if_pos e'] at this
              cases this
              rfl
            · exact absurd ((other g' e' k').mp hw) (hno g' k')
          · intro hn
            refine absurd ?_ (hn g k0)
            refine ⟨?_, e, if_pos rfl⟩
            dsimp only
            rw [hv, upd, if_pos rfl]
        · refine hi.same (by simp [inner, takeKey, e]) rfl fun g' k => ?_
          by_cases e' : g' = g
          · subst e'
            unfold Waits
            dsimp only
            rw [hv, upd, if_pos rfl, hv0]
            constructor
            · rintro ⟨a, b, _⟩; cases a; exact absurd b e
            · rintro ⟨a, _⟩; cases a
          · exact other g' e' k
    | ask g c' id hw h0 h =>
      obtain ⟨_, _, hv⟩ := view_step hd h hh
      exact step rfl rfl hv (cur_some.mpr ⟨_, hw⟩) rfl
    | register g c' id hw h0 h =>
      obtain ⟨_, _, hv⟩ := view_step hd h hh
      exact step rfl rfl hv (cur_some.mpr ⟨_, hw⟩) rfl
    | finishMsg g c' id h0 h =>
      obtain ⟨_, _, _, hv⟩ := view_step hd h hh
      exact fin rfl rfl hv (by rw [h0]; nofun) rfl
    | finishCall g k h0 h =>
      obtain ⟨_, _, _, hv⟩ := view_step hd h hh
      exact fin rfl rfl hv (by rw [h0]; nofun) rfl
    | reply g c' id hw h0 _ => exact hi.answer hk hh rfl rfl hw h0
    | silent g c' id hw h0 _ => exact hi.answer hk hh rfl rfl hw h0
    | op c' id rest h0 h =>
      obtain ⟨_, _, hv⟩ := view_step hd h hh
      exact like rfl rfl hv rfl
    | opPush c' id g rest h0 h =>
      obtain ⟨_, _, _, hv⟩ := view_step hd h hh
      exact like rfl rfl hv rfl
  · refine ⟨?_, fun _ => rfl⟩
    rintro g k ⟨a, _⟩
    obtain ⟨pc, a⟩ := cur_some.mp a
    simp only [init, AsyncHome.init] at a
    split at a <;> cases a

theorem prefix_range {f : Nat → Nat} (hf : ∀ i j, f i = f j → i = j) (p : Nat) (l : List Nat) (rest : List Nat) (h : l.map f ++ rest = (List.range p).map f) : l = List.range l.length := by
  refine List.ext_getElem (by simp) fun i h1 h2 => ?_
  have hlen := congrArg List.length h
  simp at hlen
  have e : (l.map f ++ rest)[i]? = ((List.range p).map f)[i]? := by rw [h]
  rw [List.getElem?_append_left (by simpa using h1), List.getElem?_map, List.getElem?_map, List.getElem?_eq_getElem h1, List.getElem?_range (by omega)] at e
  have e := hf _ _ (Option.some.inj e)
  rw [e, List.getElem_range]

theorem answers_range {cfg : Cfg} (hk : Keyed cfg) (hd : FixedPool cfg.home) {ls : List Label} {s : State} (h : Steps (Step cfg) (init cfg) ls s) (c : Nat) :
    ls.filterMap (answered c) = List.range (ls.filterMap (answered c)).length := by
  obtain ⟨p, hp⟩ := push_inv hk hd h c
  have hT := take_inv hk hd h c
  have hC := call_inv hd (inner_steps h) c
  have hT' : ∃ r, (ls.filterMap (inner cfg)).filterMap (takeKey cfg.home c) = (ls.filterMap (answered c)).map (cfg.key c) ++ r := by
    by_cases e : ∀ g k, ¬ Waits cfg c s g k
    · exact ⟨[], by rw [hT.idle e, List.append_nil]⟩
    · obtain ⟨g, e⟩ := Classical.not_forall.mp e
      obtain ⟨k, e⟩ := Classical.not_forall.mp e
      exact ⟨_, hT.work g k (Classical.not_not.mp e)⟩
  have hC' : ∃ r, (ls.filterMap (inner cfg)).filterMap (takeKey cfg.home c) ++ r = (ls.filterMap (inner cfg)).filterMap (pushKey cfg.home c) := by
    cases hn : s.home.num c with
    | none => exact ⟨[], by rw [hC.none hn, List.append_nil]⟩
    | some g => exact ⟨_, hC.some g hn⟩
  obtain ⟨r, hr⟩ := hT'
  obtain ⟨r', hr'⟩ := hC'
  rw [hp, hr, List.append_assoc] at hr'
  exact prefix_range (fun i j e => (hk.inj _ _ _ _ e).2) p _ _ hr'

end Zinx.Login
