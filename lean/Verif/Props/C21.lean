import Verif.Proofs.Field

/-! # C21  Cut semantics -/

namespace Cddl

/-- A map member for `key: type` or `key ^ => type`, alone or under an occurrence indicator. -/
inductive CutMember (key : Literal) (type : Node) : Node → Prop
  | plain : CutMember key type (.keyValue (.literal key) type true)
  | occur (o : OccurLimit) : CutMember key type (.occur o (.keyValue (.literal key) type true))

/-- A present key whose value is not accepted makes a cut member fail. -/
theorem cut_fails {env : Env} {c : Ctx} {l : Literal} {t n : Node} (hn : CutMember l t n) {w : WMap}
    (hw : VMap.PW w.map) {v : Value} (h : (l.toValue, v) ∈ w.map) (ha : ¬ Accepts env c t v) :
    ∀ w', (lim env).map n w c ≠ .ok w' := by
  have hb := keyvalue_bad (cut := true) hw h ha
  have key : ∀ r, (lim env).map (.keyValue (.literal l) t true) w c = r →
      (∀ w', r ≠ .ok w') ∧ ∀ e w', r = .err e w' → e.isMismatch = false := by
    rintro r rfl
    rw [keyValue_eq, hb]
    cases hv : validate env v t c with
    | ok a => exact ⟨by simp, by simp⟩
    | err e =>
      dsimp only
      refine ⟨?_, ?_⟩
      · cases e <;> simp
      · cases e <;> rintro e' w' h <;> cases h <;> rfl
    | _ => exact ⟨by simp, by simp⟩
  obtain ⟨h1, h2⟩ := key _ rfl
  cases hn with
  | plain => exact h1
  | occur o =>
    intro w'
    rw [map_eq]
    simp only [mapBody, validateMapOccur, occurLoopS]
    cases hr : (lim env).map (.keyValue (.literal l) t true) w c with
    | ok w'' => exact absurd hr (h1 w'')
    | err e w'' => simp [h2 e w'' hr]
    | _ => simp

theorem fields_keep {env : Env} {c : Ctx} : ∀ (fs : List Field) (w w' : WMap), VMap.PW w.map →
    seqLoopS (fun n w => (lim env).map n w c) (fs.map Field.node) w = .ok w' →
    VMap.PW w'.map ∧ ∀ k v, (∀ f ∈ fs, f.key.toValue ≠ k) → (k, v) ∈ w.map → (k, v) ∈ w'.map
  | [], w, w', hw, h => by cases h; exact ⟨hw, fun _ _ _ h => h⟩
  | f :: fs, w, w', hw, h => by
    simp only [List.map_cons, seqLoopS] at h
    cases hm : (lim env).map f.node w c with
    | ok w1 =>
      rw [hm] at h
      have : VMap.PW w1.map ∧ ∀ k v, f.key.toValue ≠ k → (k, v) ∈ w.map → (k, v) ∈ w1.map := by
        rcases field_step (env := env) (c := c) f hw with ⟨v, hv, ha, w'', h1, h2⟩ | ⟨_, h1⟩ | ⟨hk, h1⟩
        · rw [hm] at h1
          cases h1
          rw [h2]
          exact ⟨hw.without _, fun k v hne hp => VMap.mem_without.mpr ⟨hp, fun h => hne h.symm⟩⟩
        · obtain rfl := h1 _ hm
          exact ⟨hw, fun _ _ _ h => h⟩
        · cases ho : f.optional with
          | true =>
            simp only [ho, if_true] at h1
            rw [hm] at h1
            cases h1
            exact ⟨hw, fun _ _ _ h => h⟩
          | false =>
            simp only [ho, Bool.false_eq_true, if_false] at h1
            exact absurd hm (h1 _)
      obtain ⟨h3, h4⟩ := fields_keep fs w1 w' this.1 h
      exact ⟨h3, fun k v hf hp => h4 k v (fun g hg => hf g (by simp [hg])) (this.2 k v (hf f (by simp)) hp)⟩
    | err e w1 => rw [hm] at h; cases h
    | panic => rw [hm] at h; cases h
    | fuel => rw [hm] at h; cases h

theorem seqLoopS_append {σ : Type} {f : Node → σ → SRes σ} : ∀ (a b : List Node) (w : σ),
    seqLoopS f (a ++ b) w = match seqLoopS f a w with
      | .ok w' => seqLoopS f b w'
      | r => r
  | [], b, w => rfl
  | n :: a, b, w => by
    simp only [List.cons_append, seqLoopS]
    cases f n w with
    | ok w' => exact seqLoopS_append a b w'
    | _ => rfl

/-- C21.  `n` is a cut member for the literal key `l` (under any occurrence indicator); before it stand any
fields with other keys, after it any members.  A map that has the key with a value that is not accepted is
not accepted. -/
theorem C21_cut (env : Env) (c : Ctx) (fs : List Field) (l : Literal) (t n : Node) (post : List Node) (m : VMap) (v : Value)
    (hwf : (Value.map m).WF) (hn : CutMember l t n) (hf : ∀ f ∈ fs, f.key.toValue ≠ l.toValue)
    (hk : (l.toValue, v) ∈ m) (ha : ¬ Accepts env c t v) :
    ¬ Accepts env c (.map (fs.map Field.node ++ n :: post)) (.map m) := by
  rw [map_accepts]
  rintro ⟨m', hm', w', h1, -⟩
  cases hm'
  rw [seqLoopS_append] at h1
  cases h2 : seqLoopS (fun n w => (lim env).map n w c) (fs.map Field.node) (WMap.new m) with
  | ok w1 =>
    rw [h2] at h1
    obtain ⟨hw1, hkeep⟩ := fields_keep fs _ _ ((VMap.sorted_iff _).mp hwf.1) h2
    have hfail := cut_fails (env := env) (c := c) hn hw1 (hkeep _ v hf hk) ha
    simp only [seqLoopS] at h1
    cases h3 : (lim env).map n w1 c with
    | ok w2 => exact hfail w2 h3
    | err e w2 => rw [h3] at h1; cases h1
    | panic => rw [h3] at h1; cases h1
    | fuel => rw [h3] at h1; cases h1
  | err e w1 => rw [h2] at h1; cases h1
  | panic => rw [h2] at h1; cases h1
  | fuel => rw [h2] at h1; cases h1

/-- C21.  A cut member that fails on the value of its key makes the whole map an ordinary mismatch, with
the message of the value. -/
theorem C21_cut_result (env : Env) (c : Ctx) (l : Literal) (t n : Node) (post : List Node) (m : VMap) (v : Value) (msg : String)
    (hwf : (Value.map m).WF) (hn : CutMember l t n)
    (hk : (l.toValue, v) ∈ m) (ha : validate env v t c = .err (.mismatch msg)) :
    validate env (.map m) (.map (n :: post)) c = .err (.mismatch msg) := by
  have hna : ¬ Accepts env c t v := by unfold Accepts; rw [ha]; simp
  have hb := keyvalue_bad (cut := true) (w := WMap.new m) ((VMap.sorted_iff _).mp hwf.1) hk hna
  rw [ha] at hb
  have h1 : (lim env).map n (WMap.new m) c = .err (.mapCut msg) (WMap.new m) := by
    cases hn with
    | plain => rw [keyValue_eq, hb]
    | occur o =>
      rw [map_eq]
      simp only [mapBody, validateMapOccur, occurLoopS, keyValue_eq, hb, Err.isMismatch]
      rfl
  unfold validate
  rw [val_eq]
  simp only [valBody, validateMap, seqLoopS, h1, Err.eraseMapcut]

/-- C21.  Without the cut, an optional or repeated member whose value does not match leaves the pair to the
later members: the result is the same as without the member. -/
theorem C21_no_cut (env : Env) (c : Ctx) (l : Literal) (t : Node) (o : OccurLimit) (post : List Node) (m : VMap) (v : Value)
    (msg : String) (hwf : (Value.map m).WF) (ho : o.limits.1 = 0)
    (hk : (l.toValue, v) ∈ m) (ha : validate env v t c = .err (.mismatch msg)) :
    validate env (.map m) (.map (.occur o (.keyValue (.literal l) t false) :: post)) c =
    validate env (.map m) (.map post) c := by
  have hna : ¬ Accepts env c t v := by unfold Accepts; rw [ha]; simp
  have hb := keyvalue_bad (cut := false) (w := WMap.new m) ((VMap.sorted_iff _).mp hwf.1) hk hna
  rw [ha] at hb
  have h1 : (lim env).map (.occur o (.keyValue (.literal l) t false)) (WMap.new m) c = .ok (WMap.new m) := by
    rw [map_eq]
    simp [mapBody, validateMapOccur, occurLoopS, keyValue_eq, hb, Err.isMismatch, ho]
  unfold validate
  rw [val_eq, val_eq]
  simp only [valBody, validateMap, seqLoopS, h1]

/-! Examples: `{ ? a: int, * tstr => any }` and `{ ? "a" => int, * tstr => any }` on `{"a": nil}`. -/

example : ¬ Accepts (demoEnv []) top (.map [.occur .optional (.keyValue (.literal (.text "a")) (.prelude .int) true),
    .occur .zeroOrMore (.keyValue (.prelude .tstr) (.prelude .any) false)]) (.map [(.text "a", .null)]) := by
  have hwf : (Value.map [(.text "a", .null)]).WF := ⟨trivial, trivial, trivial, trivial⟩
  have hv : validate (demoEnv []) .null (.prelude .int) top = .err (.mismatch "int") := validate_of_fuel 60 (by decide)
  exact C21_cut (demoEnv []) top [] (.text "a") (.prelude .int) _ _ _ .null hwf (.occur .optional) (by simp)
    (.head _) (by unfold Accepts; rw [hv]; simp)

example : Accepts (demoEnv []) top (.map [.occur .optional (.keyValue (.literal (.text "a")) (.prelude .int) false),
    .occur .zeroOrMore (.keyValue (.prelude .tstr) (.prelude .any) false)]) (.map [(.text "a", .null)]) :=
  accepts_of_fuel 60 (by decide)

/-- A present key whose value does not match, under a cut. -/
theorem cut_map {env : Env} {c : Ctx} {l : Literal} {t n : Node} {w : WMap} {v : Value} {msg : String}
    (hw : VMap.PW w.map) (hn : CutMember l t n) (hk : (l.toValue, v) ∈ w.map)
    (ha : validate env v t c = .err (.mismatch msg)) : (lim env).map n w c = .err (.mapCut msg) w := by
  have hna : ¬ Accepts env c t v := by unfold Accepts; rw [ha]; simp
  have hb := keyvalue_bad (cut := true) hw hk hna
  rw [ha] at hb
  cases hn with
  | plain => rw [keyValue_eq, hb]
  | occur o =>
    rw [map_eq]
    simp only [mapBody, validateMapOccur, occurLoopS, keyValue_eq, hb, Err.isMismatch]
    rfl

/-- C21.  A cut ends a choice between members of a map: the later alternatives are not tried. -/
theorem C21_cut_choice (env : Env) (c : Ctx) (l : Literal) (t n : Node) (options post : List Node) (m : VMap) (v : Value)
    (msg : String) (hwf : (Value.map m).WF) (hn : CutMember l t n) (hk : (l.toValue, v) ∈ m)
    (ha : validate env v t c = .err (.mismatch msg)) :
    validate env (.map m) (.map (.choice (n :: options) :: post)) c = .err (.mismatch msg) := by
  have h1 := cut_map (w := WMap.new m) ((VMap.sorted_iff _).mp hwf.1) hn hk ha
  unfold validate
  rw [val_eq]
  simp only [valBody, validateMap, seqLoopS]
  rw [map_eq]
  simp only [mapBody, validateMapChoice, choiceLoopS, h1, Err.isMismatch]
  rfl

theorem choiceLoopS_keeps_msg {σ : Type} {f : Node → σ → SRes σ} {stop : Err → Bool} (msg msg' : String) {w' : σ} :
    ∀ (ns : List Node) (w : σ), choiceLoopS f stop msg ns w = .ok w' ↔ choiceLoopS f stop msg' ns w = .ok w'
  | [], w => by simp [choiceLoopS]
  | n :: ns, w => by
    simp only [choiceLoopS]
    cases f n w with
    | ok w1 => rfl
    | err e w1 =>
      dsimp only
      split
      · rfl
      · exact choiceLoopS_keeps_msg msg msg' ns w1
    | panic => rfl
    | fuel => rfl

/-- C21.  A cut in a group does not reach beyond that group: as an alternative, the group is passed over like one that
has failed for any other reason, and the later ones are tried. -/
theorem C21_cut_in_group (env : Env) (c : Ctx) (l : Literal) (t n : Node) (rest options post : List Node) (m : VMap)
    (v : Value) (msg : String) (hwf : (Value.map m).WF) (hn : CutMember l t n) (hk : (l.toValue, v) ∈ m)
    (ha : validate env v t c = .err (.mismatch msg)) :
    Accepts env c (.map (.choice (.group (n :: rest) :: options) :: post)) (.map m) ↔
      Accepts env c (.map (.choice options :: post)) (.map m) := by
  have h1 := cut_map (w := (WMap.new m).snapshot) ((VMap.sorted_iff _).mp hwf.1) hn hk ha
  have h2 : (lim env).map (.group (n :: rest)) (WMap.new m) c = .err (.mismatch msg) (WMap.new m) := by
    rw [map_eq]
    simp only [mapBody, validateMapGroup, seqLoopS, h1]
    rfl
  have key : ∀ w', (lim env).map (.choice (.group (n :: rest) :: options)) (WMap.new m) c = .ok w' ↔
      (lim env).map (.choice options) (WMap.new m) c = .ok w' := by
    intro w'
    rw [map_eq, map_eq]
    simp only [mapBody, validateMapChoice]
    rw [choiceLoopS, h2]
    exact choiceLoopS_keeps_msg _ _ options _
  rw [map_accepts, map_accepts]
  simp only [seqLoopS]
  constructor
  · rintro ⟨m', e, w', h, h'⟩
    cases e
    refine ⟨m, rfl, w', ?_, h'⟩
    cases hc : (lim env).map (.choice (.group (n :: rest) :: options)) (WMap.new m) c with
    | ok w1 => rw [hc] at h; rw [(key w1).1 hc]; exact h
    | _ => rw [hc] at h; cases h
  · rintro ⟨m', e, w', h, h'⟩
    cases e
    refine ⟨m, rfl, w', ?_, h'⟩
    cases hc : (lim env).map (.choice options) (WMap.new m) c with
    | ok w1 => rw [hc] at h; rw [(key w1).2 hc]; exact h
    | _ => rw [hc] at h; cases h

/-- `a: int` with a text under `a`: the second alternative would accept it, and does so if the first is a group. -/
example : validate (demoEnv []) (.map [(.text "a", .text "x")])
      (.map [.choice [.keyValue (.literal (.text "a")) (.prelude .int) true,
        .keyValue (.literal (.text "a")) (.prelude .tstr) true]]) top = .err (.mismatch "int") ∧
    Accepts (demoEnv []) top
      (.map [.choice [.group [.keyValue (.literal (.text "a")) (.prelude .int) true],
        .keyValue (.literal (.text "a")) (.prelude .tstr) true]]) (.map [(.text "a", .text "x")]) := by
  have hwf : (Value.map [(.text "a", .text "x")]).WF := ⟨trivial, trivial, trivial, trivial⟩
  have hv : validate (demoEnv []) (.text "x") (.prelude .int) top = .err (.mismatch "int") := validate_of_fuel 60 (by decide)
  exact ⟨C21_cut_choice _ _ (.text "a") _ _ _ _ _ _ _ hwf .plain (.head _) hv,
    (C21_cut_in_group _ _ (.text "a") _ _ _ _ _ _ _ _ hwf .plain (.head _) hv).mpr (accepts_of_fuel 60 (by decide))⟩

end Cddl
