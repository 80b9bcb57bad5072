import Verif.Model.ConfJson

/-! # C137: a configuration file sets what it names -/

namespace Zinx.Props

open Zinx.Conf Zinx.ConfJson

/-- A member called `key` belongs to the setting `f`: the names are the same up to upper and lower case. -/
def Named (key : List Char) (f : Setting) : Prop := key.map foldChar = f.fieldName.map foldChar

/-- The value `v` in a file stands for the value `x` of a setting. -/
def Denotes : Value → Val → Prop
  | .str s, .str t => t = s
  | .bool b, .bool c => c = b
  | .int neg n, .int i => (i = if neg then -(n : Int) else n) ∧ -2 ^ 63 ≤ i ∧ i < 2 ^ 63
  | .int neg n, .u32 u => neg = false ∧ u.toNat = n
  | _, _ => False

/-- Values of the same type. -/
def SameType : Val → Val → Prop
  | .str _, .str _ => True
  | .bool _, .bool _ => True
  | .int _, .int _ => True
  | .u32 _, .u32 _ => True
  | _, _ => False

/-- `v` gives the setting `f` the value `x`. -/
def Gives (f : Setting) (v : Value) (x : Val) : Prop := Denotes v x ∧ SameType x (f.get zero)

/-- `v` does not fit the setting `f`. -/
def Misfit (f : Setting) (v : Value) : Prop := v ≠ .null ∧ ∀ x, ¬ Gives f v x

/-- The last member of `ms` that belongs to `f` and gives it a value gives it the value `x`. -/
def LastGiven (f : Setting) (ms : List (List Char × Value)) (x : Val) : Prop :=
  ∃ a k v b, ms = a ++ (k, v) :: b ∧ Named k f ∧ Gives f v x ∧ ∀ m ∈ b, Named m.1 f → ∀ y, ¬ Gives f m.2 y

theorem mem_settings (f : Setting) : f ∈ settings := by cases f <;> simp [settings]

theorem names_differ : ∀ f ∈ settings, ∀ f' ∈ settings, f.fieldName.map foldChar = f'.fieldName.map foldChar → f = f' := by decide

theorem named_unique {key : List Char} {f f' : Setting} (h : Named key f) (h' : Named key f') : f = f' :=
  names_differ f (mem_settings f) f' (mem_settings f') (h.symm.trans h')

theorem find_iff {key : List Char} {f : Setting} : find key = some f ↔ Named key f := by
  have h1 : ∀ g, find key = some g → Named key g := by
    intro g h
    unfold find at h
    rw [Option.or_eq_some_iff] at h
    rcases h with h | ⟨_, h⟩
    · have := List.find?_some h
      unfold Named
      rw [← beq_iff_eq.1 this]
    · have := List.find?_some h
      exact (beq_iff_eq.1 this).symm
  constructor
  · exact h1 f
  · intro h
    cases hf : find key with
    | some g => rw [named_unique h (h1 g hf)]
    | none =>
      unfold find at hf
      rw [Option.or_eq_none_iff, List.find?_eq_none, List.find?_eq_none] at hf
      exact absurd (beq_iff_eq.2 h.symm) (hf.2 f (mem_settings f))

theorem asStr_iff {v : Value} {x : String} : asStr v = some x ↔ Denotes v (.str x) := by
  cases v <;> simp [asStr, Denotes, eq_comm]

theorem asBool_iff {v : Value} {x : Bool} : asBool v = some x ↔ Denotes v (.bool x) := by
  cases v <;> simp [asBool, Denotes, eq_comm]

theorem asInt_iff {v : Value} {x : Int} : asInt v = some x ↔ Denotes v (.int x) := by
  cases v <;> simp [asInt, Denotes, signed]
  grind

theorem asU32_iff {v : Value} {x : UInt32} : asU32 v = some x ↔ Denotes v (.u32 x) := by
  cases v with
  | int neg n =>
    cases neg
    · simp only [asU32, Denotes, true_and]
      constructor
      · intro h
        split at h
        · cases h
          exact UInt32.toNat_ofNat_of_lt' (by assumption)
        · cases h
      · intro h
        have : n < 2 ^ 32 := by rw [← h]; exact x.toNat_lt
        rw [if_pos this, ← h, UInt32.ofNat_toNat]
    · simp [asU32, Denotes]
  | _ => simp [asU32, Denotes]

/-- Storing a value that fits. -/
theorem put_some {f : Setting} {v : Value} {g g' : Config} (h : f.put v g = some g') : Gives f v (f.get g') ∧ ∀ f', f' ≠ f → f'.get g' = f'.get g := by
  cases f <;> simp only [Setting.put, Option.map_eq_some_iff] at h <;> obtain ⟨x, hx, rfl⟩ := h <;>
    refine ⟨⟨by first | exact asStr_iff.1 hx | exact asInt_iff.1 hx | exact asU32_iff.1 hx | exact asBool_iff.1 hx, trivial⟩, fun f' hf => ?_⟩ <;>
    cases f' <;> first | rfl | exact absurd rfl hf

theorem gives_put {f : Setting} {v : Value} {g : Config} {x : Val} (h : Gives f v x) : ∃ g', f.put v g = some g' ∧ f.get g' = x := by
  obtain ⟨h1, h2⟩ := h
  cases f <;> cases x <;>
    first
    | exact (show False from h2).elim
    | (have e := asStr_iff.2 h1; exact ⟨_, by simp only [Setting.put, e]; rfl, rfl⟩)
    | (have e := asInt_iff.2 h1; exact ⟨_, by simp only [Setting.put, e]; rfl, rfl⟩)
    | (have e := asU32_iff.2 h1; exact ⟨_, by simp only [Setting.put, e]; rfl, rfl⟩)
    | (have e := asBool_iff.2 h1; exact ⟨_, by simp only [Setting.put, e]; rfl, rfl⟩)

/-- What a member does. -/
theorem member_spec (g : Config) (k : List Char) (v : Value) :
    (∀ f x, Named k f → Gives f v x → f.get (member g (k, v)).1 = x) ∧
    (∀ f, ¬ (Named k f ∧ ∃ x, Gives f v x) → f.get (member g (k, v)).1 = f.get g) ∧
    ((member g (k, v)).2 = true ↔ ∃ f, Named k f ∧ Misfit f v) := by
  have hnull : ∀ f x, ¬ Gives f .null x := fun f x h => by cases x <;> exact h.1
  cases hf : find k with
  | none =>
    have hn : ∀ f, ¬ Named k f := fun f h => by rw [find_iff.2 h] at hf; cases hf
    have e : member g (k, v) = (g, false) := by unfold member; rw [hf]
    rw [e]
    exact ⟨fun f x h => absurd h (hn f), fun _ _ => rfl, ⟨fun h => (by cases h), fun ⟨f, h, _⟩ => absurd h (hn f)⟩⟩
  | some f0 =>
    have h0 := find_iff.1 hf
    by_cases hv : v = .null
    · subst hv
      have e : member g (k, .null) = (g, false) := by unfold member; rw [hf]
      rw [e]
      exact ⟨fun f x _ h => absurd h (hnull f x), fun _ _ => rfl, ⟨fun h => (by cases h), fun ⟨f, _, h, _⟩ => absurd rfl h⟩⟩
    · have e : member g (k, v) = match f0.put v g with | some g' => (g', false) | none => (g, true) := by
        unfold member
        rw [hf]
        cases v <;> first | exact absurd rfl hv | rfl
      cases hp : f0.put v g with
      | none =>
        rw [hp] at e
        have e : member g (k, v) = (g, true) := e
        have hno : ∀ x, ¬ Gives f0 v x := fun x h => by
          obtain ⟨g', h1, _⟩ := gives_put (g := g) h
          rw [hp] at h1; cases h1
        rw [e]
        exact ⟨fun f x h h1 => absurd (named_unique h h0 ▸ h1) (hno x), fun _ _ => rfl, ⟨fun _ => ⟨f0, h0, hv, hno⟩, fun _ => rfl⟩⟩
      | some g' =>
        rw [hp] at e
        have e : member g (k, v) = (g', false) := e
        have hs := put_some hp
        rw [e]
        refine ⟨fun f x h h1 => ?_, fun f h => ?_, ⟨fun h => (by cases h), fun ⟨f, h, _, h2⟩ => ?_⟩⟩
        · obtain ⟨g'', h2, h3⟩ := gives_put (g := g) h1
          rw [named_unique h h0] at h2 ⊢
          rw [named_unique h h0] at h3
          rw [hp] at h2; cases h2
          exact h3
        · refine hs.2 f fun e => h ?_
          subst e
          exact ⟨h0, _, hs.1⟩
        · rw [named_unique h h0] at h2
          exact absurd hs.1 (h2 _)

theorem members_spec (ms : List (List Char × Value)) : ∀ g : Config,
    (∀ f x, LastGiven f ms x → f.get (members g ms).1 = x) ∧
    (∀ f, (∀ m ∈ ms, Named m.1 f → ∀ x, ¬ Gives f m.2 x) → f.get (members g ms).1 = f.get g) ∧
    ((members g ms).2 = true ↔ ∃ m ∈ ms, ∃ f, Named m.1 f ∧ Misfit f m.2) := by
  induction ms with
  | nil =>
    intro g
    refine ⟨fun f x ⟨a, k, v, b, e, _⟩ => ?_, fun _ _ => rfl, ⟨fun h => (by cases h), fun ⟨m, h, _⟩ => (by cases h)⟩⟩
    simp at e
  | cons m ms ih =>
    intro g
    obtain ⟨k, v⟩ := m
    obtain ⟨i1, i2, i3⟩ := ih (member g (k, v)).1
    obtain ⟨m1, m2, m3⟩ := member_spec g k v
    refine ⟨fun f x hl => ?_, fun f h => ?_, ?_⟩
    · obtain ⟨a, k', v', b, e, hn, hg, hb⟩ := hl
      cases a with
      | nil =>
        cases e
        show f.get (members _ ms).1 = x
        rw [i2 f hb]
        exact m1 f x hn hg
      | cons c a =>
        cases e
        exact i1 f x ⟨a, k', v', b, rfl, hn, hg, hb⟩
    · show f.get (members _ ms).1 = _
      rw [i2 f fun m hm => h m (List.mem_cons_of_mem _ hm)]
      exact m2 f fun ⟨hn, x, hx⟩ => h (k, v) (List.mem_cons_self ..) hn x hx
    · show ((member g (k, v)).2 || (members _ ms).2) = true ↔ _
      rw [Bool.or_eq_true, m3, i3]
      constructor
      · rintro (⟨f, h⟩ | ⟨m, hm, h⟩)
        · exact ⟨(k, v), List.mem_cons_self .., f, h⟩
        · exact ⟨m, List.mem_cons_of_mem _ hm, h⟩
      · rintro ⟨m, hm, h⟩
        rcases List.mem_cons.1 hm with rfl | hm
        · exact .inl h
        · exact .inr ⟨m, hm, h⟩

theorem reload_doc (s : ConfLog.State) (ms : List (List Char × Value)) :
    (ConfJson.reload s (.doc (.obj ms))).1.conf = (members s.conf ms).1 ∧ (ConfJson.reload s (.doc (.obj ms))).2 = (members s.conf ms).2 := by
  show (ConfLog.reload s (if (members s.conf ms).2 then _ else _)).1.conf = _ ∧ (ConfLog.reload s (if (members s.conf ms).2 then _ else _)).2 = _
  cases h : (members s.conf ms).2
  · exact ⟨rfl, rfl⟩
  · exact ⟨rfl, rfl⟩

/-- A setting is given a value by some member, or by none. -/
theorem given_or (f : Setting) (ms : List (List Char × Value)) : (∃ x, LastGiven f ms x) ∨ ∀ m ∈ ms, Named m.1 f → ∀ x, ¬ Gives f m.2 x := by
  induction ms with
  | nil => exact .inr fun m h => by cases h
  | cons m ms ih =>
    rcases ih with ⟨x, a, k, v, b, e, h⟩ | h
    · exact .inl ⟨x, m :: a, k, v, b, by rw [e]; rfl, h⟩
    · by_cases hm : Named m.1 f ∧ ∃ x, Gives f m.2 x
      · obtain ⟨h1, x, h2⟩ := hm
        exact .inl ⟨x, [], m.1, m.2, ms, rfl, h1, h2, h⟩
      · refine .inr fun m' hm' hn x hx => ?_
        rcases List.mem_cons.1 hm' with rfl | hm'
        · exact hm ⟨hn, x, hx⟩
        · exact h m' hm' hn x hx

/-- **C137.** Loading a file that is a JSON object, into any configuration: a setting of which members give a value has the value of the last of them; all other settings keep their value, also
those that are mentioned with `null` or with a value that does not fit. Missing: that a file with a value that does not fit changes nothing, which is false (`C137_refuted`). -/
theorem C137_partial (s : ConfLog.State) (ms : List (List Char × Value)) (f : Setting) :
    (∀ x, LastGiven f ms x → f.get (ConfJson.reload s (.doc (.obj ms))).1.conf = x) ∧
    ((∀ m ∈ ms, Named m.1 f → ∀ x, ¬ Gives f m.2 x) → f.get (ConfJson.reload s (.doc (.obj ms))).1.conf = f.get s.conf) := by
  rw [(reload_doc s ms).1]
  exact ⟨(members_spec ms s.conf).1 f, (members_spec ms s.conf).2.1 f⟩

/-- **C137, the names.** A member belongs to at most one setting, also when case is not looked at. -/
theorem C137_names (key : List Char) (f f' : Setting) (h : Named key f) (h' : Named key f') : f = f' := named_unique h h'

/-- Two characters are the same letter (number `k` of the alphabet) in upper or lower case; the long s counts as an s and the Kelvin sign as a k. -/
def LetterOf (k : Nat) (c : Char) : Prop :=
  c.toNat = 'A'.toNat + k ∨ c.toNat = 'a'.toNat + k ∨ (k = 18 ∧ c = 'ſ') ∨ (k = 10 ∧ c = '\u212a')

theorem foldChar_eq (c d : Char) : foldChar c = foldChar d ↔ c = d ∨ ∃ k < 26, LetterOf k c ∧ LetterOf k d := by
  have ext : ∀ x y : Char, x = y ↔ x.toNat = y.toNat := fun x y => ⟨fun h => by rw [h], fun h => Char.ext (UInt32.toNat_inj.1 h)⟩
  unfold LetterOf
  simp only [ext, show 'A'.toNat = 65 from rfl, show 'a'.toNat = 97 from rfl, show 'ſ'.toNat = 0x17f from rfl, show '\u212a'.toNat = 0x212a from rfl]
  generalize hm : c.toNat = m
  generalize hn : d.toNat = n
  unfold foldChar
  rw [hm, hn]
  have eq : ∀ m n : Nat, (if m = 383 then 115 else if m = 8490 then 107 else if 65 ≤ m ∧ m ≤ 90 then m + 32 else m) =
      (if n = 383 then 115 else if n = 8490 then 107 else if 65 ≤ n ∧ n ≤ 90 then n + 32 else n) →
      m = n ∨ ∃ k < 26, (m = 65 + k ∨ m = 97 + k ∨ k = 18 ∧ m = 383 ∨ k = 10 ∧ m = 8490) ∧ (n = 65 + k ∨ n = 97 + k ∨ k = 18 ∧ n = 383 ∨ k = 10 ∧ n = 8490) := by
    intro m n h
    have hv : ∀ m : Nat, ∃ v, (if m = 383 then 115 else if m = 8490 then 107 else if 65 ≤ m ∧ m ≤ 90 then m + 32 else m) = v ∧
        (m = 383 ∧ v = 115 ∨ m = 8490 ∧ v = 107 ∨ 65 ≤ m ∧ m ≤ 90 ∧ v = m + 32 ∨ m ≠ 383 ∧ m ≠ 8490 ∧ ¬ (65 ≤ m ∧ m ≤ 90) ∧ v = m) := by
      intro m
      refine ⟨_, rfl, ?_⟩
      repeat' split
      all_goals omega
    obtain ⟨v, hv1, hv2⟩ := hv m
    obtain ⟨u, hu1, hu2⟩ := hv n
    rw [hv1, hu1] at h
    by_cases e : m = n
    · exact .inl e
    · exact .inr ⟨v - 97, by omega, by omega, by omega⟩
  constructor
  · exact eq m n
  · rintro (h | ⟨k, hk, h1, h2⟩)
    · rw [h]
    · have val : ∀ x, (x = 65 + k ∨ x = 97 + k ∨ k = 18 ∧ x = 383 ∨ k = 10 ∧ x = 8490) →
          (if x = 383 then 115 else if x = 8490 then 107 else if 65 ≤ x ∧ x ≤ 90 then x + 32 else x) = 97 + k := by
        intro x hx
        repeat' split
        all_goals omega
      rw [val m h1, val n h2]

/-- **C137, what counts as the same name**: as many characters, each the same or the same letter. -/
theorem C137_case (key : List Char) (f : Setting) : Named key f ↔ key.length = f.fieldName.length ∧
    ∀ (i : Nat) (h : i < key.length) (h' : i < f.fieldName.length), key[i] = f.fieldName[i] ∨ ∃ k < 26, LetterOf k key[i] ∧ LetterOf k f.fieldName[i] := by
  unfold Named
  rw [List.ext_getElem_iff]
  simp only [List.length_map, List.getElem_map, foldChar_eq]

/-- `"tCPpORT"` with any mixture of cases names the TCP port. -/
example : Named ['t', 'C', 'P', 'p', 'O', 'R', 'T'] .tcpPort ∧ LetterOf 19 't' ∧ LetterOf 19 'T' :=
  ⟨by unfold Named; decide, .inr (.inl rfl), .inl rfl⟩

/-- **C137, when it panics.** `Reload` panics if and only if the file cannot be read, is not JSON, is a document that is neither an object nor `null`, or gives some setting a value of another type
or out of range. -/
theorem C137_exact (s : ConfLog.State) (file : File) : (ConfJson.reload s file).2 = true ↔
    file = .unreadable ∨ file = .noJson ∨ file = .doc .other ∨ ∃ ms, file = .doc (.obj ms) ∧ ∃ m ∈ ms, ∃ f, Named m.1 f ∧ Misfit f m.2 := by
  match file with
  | .missing => exact ⟨fun h => (by cases h), fun h => (by rcases h with h | h | h | ⟨_, h, _⟩ <;> cases h)⟩
  | .unreadable => exact ⟨fun _ => .inl rfl, fun _ => rfl⟩
  | .noJson => exact ⟨fun _ => .inr (.inl rfl), fun _ => rfl⟩
  | .doc .other => exact ⟨fun _ => .inr (.inr (.inl rfl)), fun _ => rfl⟩
  | .doc .null => exact ⟨fun h => (by cases h), fun h => (by rcases h with h | h | h | ⟨_, h, _⟩ <;> cases h)⟩
  | .doc (.obj ms) =>
    rw [(reload_doc s ms).2, (members_spec ms s.conf).2.2]
    constructor
    · intro h
      exact .inr (.inr (.inr ⟨ms, rfl, h⟩))
    · rintro (h | h | h | ⟨_, h, h2⟩) <;> cases h
      exact h2

/-- **C137, no object.** A file that is not there, cannot be read, is not JSON or is no JSON object changes no setting. -/
theorem C137_unchanged (s : ConfLog.State) (file : File) (h : ∀ ms, file ≠ .doc (.obj ms)) : (ConfJson.reload s file).1.conf = s.conf := by
  match file with
  | .missing => rfl
  | .unreadable => rfl
  | .noJson => rfl
  | .doc .other => rfl
  | .doc .null => rfl
  | .doc (.obj ms) => exact absurd rfl (h ms)

theorem config_ext {g g' : Config} (h : ∀ f : Setting, f.get g = f.get g') : g = g' := by
  cases g
  cases g'
  rw [Config.mk.injEq]
  exact ⟨Val.str.inj (h .host), Val.int.inj (h .tcpPort), Val.int.inj (h .wsPort), Val.str.inj (h .wsPath), Val.str.inj (h .name), Val.int.inj (h .kcpPort), Val.bool.inj (h .kcpACKNoDelay), Val.bool.inj (h .kcpStreamMode), Val.int.inj (h .kcpNoDelay), Val.int.inj (h .kcpInterval), Val.int.inj (h .kcpResend), Val.int.inj (h .kcpNc), Val.int.inj (h .kcpSendWindow), Val.int.inj (h .kcpRecvWindow), Val.int.inj (h .kcpFecDataShards), Val.int.inj (h .kcpFecParityShards), Val.str.inj (h .version), Val.u32.inj (h .maxPacketSize), Val.int.inj (h .maxConn), Val.u32.inj (h .workerPoolSize), Val.u32.inj (h .maxWorkerTaskLen), Val.str.inj (h .workerMode), Val.u32.inj (h .maxMsgChanLen), Val.u32.inj (h .ioReadBuffSize), Val.str.inj (h .mode), Val.bool.inj (h .routerSlicesMode), Val.bool.inj (h .requestPoolMode), Val.str.inj (h .logDir), Val.str.inj (h .logFile), Val.int.inj (h .logSaveDays), Val.int.inj (h .logFileSize), Val.bool.inj (h .logCons), Val.int.inj (h .logIsolationLevel), Val.int.inj (h .heartbeatMax), Val.str.inj (h .certFile), Val.str.inj (h .privateKeyFile)⟩

/-- **C137, again.** Loading the same file twice is the same as loading it once, and panics again if it did. -/
theorem C137_again (s : ConfLog.State) (ms : List (List Char × Value)) :
    (ConfJson.reload (ConfJson.reload s (.doc (.obj ms))).1 (.doc (.obj ms))).1.conf = (ConfJson.reload s (.doc (.obj ms))).1.conf ∧
    (ConfJson.reload (ConfJson.reload s (.doc (.obj ms))).1 (.doc (.obj ms))).2 = (ConfJson.reload s (.doc (.obj ms))).2 := by
  constructor
  · refine config_ext fun f => ?_
    rcases given_or f ms with ⟨x, h⟩ | h
    · rw [(C137_partial _ ms f).1 x h, (C137_partial _ ms f).1 x h]
    · exact (C137_partial _ ms f).2 h
  · rw [Bool.eq_iff_iff, C137_exact, C137_exact]

/-- **C137, as after a restart.** Loading a JSON object into the configuration of a running process gives the configuration that the same file gives at the start of a process if and only if the
settings the file gives no value have their default values. -/
theorem C137_restart_exact (s : ConfLog.State) (dir : String) (ms : List (List Char × Value)) :
    (ConfJson.reload s (.doc (.obj ms))).1.conf = (ConfJson.reload (ConfLog.initial dir) (.doc (.obj ms))).1.conf ↔
    ∀ f : Setting, (∀ m ∈ ms, Named m.1 f → ∀ x, ¬ Gives f m.2 x) → f.get s.conf = f.get (defaults dir) := by
  constructor
  · intro h f hf
    have h1 := (C137_partial s ms f).2 hf
    have h2 := (C137_partial (ConfLog.initial dir) ms f).2 hf
    rw [h] at h1
    exact h1.symm.trans h2
  · intro h
    refine config_ext fun f => ?_
    rcases given_or f ms with ⟨x, hx⟩ | hf
    · rw [(C137_partial _ ms f).1 x hx, (C137_partial _ ms f).1 x hx]
    · rw [(C137_partial _ ms f).2 hf, (C137_partial _ ms f).2 hf]
      exact h f hf

/-- The configuration file of the demo game, `zinx_app_demo/mmo_game/conf/zinx.json`; `TcpPort` is written with small letters. -/
def mmoFile : List (List Char × Value) :=
  [(['N', 'a', 'm', 'e'], .str "Zinx Game"), (['H', 'o', 's', 't'], .str "0.0.0.0"), (['T', 'c', 'p', 'P', 'o', 'r', 't'], .int false 8999), (['M', 'a', 'x', 'C', 'o', 'n', 'n'], .int false 3000),
    (['W', 'o', 'r', 'k', 'e', 'r', 'P', 'o', 'o', 'l', 'S', 'i', 'z', 'e'], .int false 10), (['L', 'o', 'g', 'D', 'i', 'r'], .str "./mmo_game_log"), (['L', 'o', 'g', 'F', 'i', 'l', 'e'], .str "mmo_game.log")]

theorem mmo_loaded : ConfJson.reload (ConfLog.initial "/srv") (.doc (.obj mmoFile)) =
    (⟨{ defaults "/srv" with name := "Zinx Game", maxConn := 3000, logDir := "./mmo_game_log", logFile := "mmo_game.log" }, { fw := some { dir := "./mmo_game_log", file := "mmo_game.log" } }⟩, false) := by
  rfl

example : LastGiven .tcpPort mmoFile (.int 8999) ∧ LastGiven .maxConn mmoFile (.int 3000) ∧ (∀ m ∈ mmoFile, Named m.1 .wsPort → ∀ x, ¬ Gives .wsPort m.2 x) := by
  refine ⟨⟨mmoFile.take 2, _, _, mmoFile.drop 3, rfl, rfl, ⟨⟨rfl, by decide, by decide⟩, trivial⟩, ?_⟩, ⟨mmoFile.take 3, _, _, mmoFile.drop 4, rfl, rfl, ⟨⟨rfl, by decide, by decide⟩, trivial⟩, ?_⟩, ?_⟩ <;>
  · intro m hm hn
    exfalso
    revert m
    unfold Named
    decide

/-- A number with an exponent, a negative pool size, `null` and an unknown name. -/
example : Misfit .maxConn .real ∧ Misfit .workerPoolSize (.int true 1) ∧ ¬ Misfit .maxConn .null ∧ ∀ f, ¬ Named ['P', 'o', 'r', 't'] f :=
  ⟨⟨by decide, fun x h => by cases x <;> exact h.1⟩, ⟨by decide, fun x h => by cases x <;> simp_all [Gives, Denotes, SameType, Setting.get]⟩, fun h => h.1 rfl,
    fun f h => (show ∀ f ∈ settings, ¬ List.map foldChar ['P', 'o', 'r', 't'] = f.fieldName.map foldChar by decide) f (mem_settings f) h⟩

/-- **C137 refuted.** A file with a value that does not fit ends in a panic, and yet the other members take effect, those before it and those behind it. -/
theorem C137_refuted : ∃ ms, (ConfJson.reload (ConfLog.initial "/srv") (.doc (.obj ms))).2 = true ∧ (ConfJson.reload (ConfLog.initial "/srv") (.doc (.obj ms))).1.conf.maxConn = 5 ∧
    (ConfJson.reload (ConfLog.initial "/srv") (.doc (.obj ms))).1.conf.name = "x" ∧ (ConfJson.reload (ConfLog.initial "/srv") (.doc (.obj ms))).1.conf.tcpPort = 8999 :=
  ⟨[(['M', 'a', 'x', 'C', 'o', 'n', 'n'], .int false 5), (['T', 'C', 'P', 'P', 'o', 'r', 't'], .str "8000"), (['N', 'a', 'm', 'e'], .str "x")], by decide⟩

/-- **C137 refuted, loading again.** A line is taken out of the file and the file is loaded again: the setting keeps the value of the old file, not the default. -/
theorem C137_stale_refuted : ∃ s, ConfJson.reload (ConfLog.initial "/srv") (.doc (.obj mmoFile)) = (s, false) ∧
    (ConfJson.reload s (.doc (.obj (mmoFile.eraseIdx 3)))).1.conf.maxConn = 3000 ∧
    (ConfJson.reload (ConfLog.initial "/srv") (.doc (.obj (mmoFile.eraseIdx 3)))).1.conf.maxConn = 12000 :=
  ⟨_, mmo_loaded, rfl, rfl⟩

end Zinx.Props
