import Verif.Proofs.Bare
import Verif.Proofs.Safe

/-! # Without the feature, the answer is the same or says that the feature is missing

Provided that no key of a map uses `.cbor`: an error met while looking for a key is dropped. -/

namespace Cddl

/-- What is said where the feature is missing. -/
def bareErr : Err := .unsupported "'.cbor' control operator; enable ciborium feature to support."

mutual
/-- Keys of maps use neither `.cbor` nor names. -/
def Node.freeKeys : Node → Bool
  | .literal _ | .prelude _ | .ctlRegexp _ | .ctlCbor _ | .range .. | .ctl .. => true
  | .rule _ l | .unwrap _ l | .choiceify _ l | .choice l | .map l | .array l | .group l | .choiceifyInline l =>
    Node.freeKeysL l
  | .keyValue k t _ => k.noCbor false && t.freeKeys
  | .occur _ n => n.freeKeys
/-- The same of each. -/
def Node.freeKeysL : List Node → Bool
  | [] => true
  | n :: ns => n.freeKeys && Node.freeKeysL ns
end

theorem Node.freeKeysL_mem : ∀ {l : List Node}, Node.freeKeysL l = true → ∀ n ∈ l, n.freeKeys = true
  | [], _, _, h => (nomatch h)
  | a :: l, h, n, hn => by
    simp only [Node.freeKeysL, Bool.and_eq_true] at h
    rcases List.mem_cons.mp hn with rfl | hn
    · exact h.1
    · exact Node.freeKeysL_mem h.2 n hn

/-- The same of the arguments bound in the scope. -/
def Ctx.freeKeys : Ctx → Prop
  | .root _ => True
  | .frame g p _ => (∀ a ∈ g, a.2.freeKeys = true) ∧ p.freeKeys

/-- The same of all rules. -/
def Env.freeKeys (env : Env) : Prop := ∀ s rd, env.lookup s = .ok rd → rd.node.freeKeys = true

theorem gmapFind_freeKeys {s : String} {n : Node} : ∀ {g : List (String × Node)}, (∀ a ∈ g, a.2.freeKeys = true) →
    gmapFind g s = some n → n.freeKeys = true
  | [], _, h => (nomatch h)
  | (a, b) :: g, hg, h => by
    simp only [gmapFind] at h
    cases hr : gmapFind g s with
    | some y =>
      rw [hr] at h
      cases h
      exact gmapFind_freeKeys (fun q hq => hg q (by simp [hq])) hr
    | none =>
      rw [hr] at h
      dsimp only at h
      split at h
      · cases h
        exact hg (a, n) (by simp)
      · cases h

theorem lookup_freeKeys {env : Env} (he : env.freeKeys) {c : Ctx} (hc : c.freeKeys) {s : String}
    {as : List Node} (ha : Node.freeKeysL as = true) {n : Node} {d : Ctx} (h : c.lookupRule env s as = .ok (n, d)) :
    n.freeKeys = true ∧ d.freeKeys := by
  have key : ∀ {r}, ((env.lookup s).bind fun rd => (c.derive rd as).bind fun c => Except.ok (rd.node, c)) = r → r = .ok (n, d) →
      n.freeKeys = true ∧ d.freeKeys := by
    rintro r rfl h
    cases hl : env.lookup s with
    | error e => rw [hl] at h; simp [Except.bind] at h
    | ok rd =>
      rw [hl] at h
      simp only [Except.bind] at h
      cases hd : c.derive rd as with
      | error e => rw [hd] at h; simp at h
      | ok d' =>
        rw [hd] at h
        injection h with h
        injection h with h1 h2
        subst h1 h2
        simp only [Ctx.derive, Ctx.incDepth] at hd
        split at hd
        · cases hd
        · split at hd
          · cases hd
          · cases hd
            exact ⟨he s rd hl, fun p hp => Node.freeKeysL_mem ha _ (List.of_mem_zip hp).2, hc⟩
  cases c with
  | root m => exact key rfl h
  | frame g p m =>
    simp only [Ctx.lookupRule] at h
    cases hg : gmapFind g s with
    | some y =>
      rw [hg] at h
      injection h with h
      injection h with h1 h2
      subst h1 h2
      exact ⟨gmapFind_freeKeys hc.1 hg, hc.2⟩
    | none =>
      rw [hg] at h
      exact key rfl h

/-- The answer says that the feature is missing. -/
inductive SaysLack : Res Unit → Prop
  | err : SaysLack (.err bareErr)
  | panic : SaysLack .panic

/-- The same with working copies. -/
inductive SaysLackS {σ : Type} : SRes σ → Prop
  | err (w : σ) : SaysLackS (.err bareErr w)
  | panic : SaysLackS .panic

/-- The answer is the same, or says that the feature is missing, or is a panic (which `bare_good` below excludes). -/
def BareLacks (r r' : Res Unit) : Prop := SaysLack r ∨ r = r'

/-- The same with working copies. -/
def BareLacksS {σ : Type} (r r' : SRes σ) : Prop := SaysLackS r ∨ r = r'

/-! ## Loops -/

theorem choiceLoop_lacks {f g : Node → Res Unit} {m : String} : ∀ {l : List Node}, (∀ n ∈ l, BareLacks (f n) (g n)) →
    BareLacks (choiceLoop f m l) (choiceLoop g m l)
  | [], _ => .inr rfl
  | n :: l, h => by
    have ih := choiceLoop_lacks (m := m) fun q hq => h q (List.mem_cons_of_mem n hq)
    simp only [choiceLoop]
    rcases h n (by simp) with h1 | h1
    · revert h1
      generalize f n = x
      rintro (_ | _)
      · exact .inl .err
      · exact .inl .panic
    · rw [h1]
      cases g n with
      | err e =>
        dsimp only
        split
        · exact .inr rfl
        · exact ih
      | _ => exact .inr rfl

theorem choiceLoopS_lacks {σ : Type} {f g : Node → σ → SRes σ} {stop : Err → Bool} (hs : stop bareErr = true) {m : String} :
    ∀ {l : List Node}, (∀ n ∈ l, ∀ w, BareLacksS (f n w) (g n w)) → ∀ w, BareLacksS (choiceLoopS f stop m l w) (choiceLoopS g stop m l w)
  | [], _, _ => .inr rfl
  | n :: l, h, w => by
    have ih := choiceLoopS_lacks hs (m := m) fun q hq => h q (List.mem_cons_of_mem n hq)
    simp only [choiceLoopS]
    rcases h n (by simp) w with h1 | h1
    · revert h1
      generalize f n w = x
      rintro (w' | _)
      · simp only [hs, if_true]
        exact .inl (.err w')
      · exact .inl .panic
    · rw [h1]
      cases g n w with
      | err e w' =>
        dsimp only
        split
        · exact .inr rfl
        · exact ih w'
      | _ => exact .inr rfl

theorem seqLoopS_lacks {σ : Type} {f g : Node → σ → SRes σ} : ∀ {l : List Node},
    (∀ n ∈ l, ∀ w, BareLacksS (f n w) (g n w)) → ∀ w, BareLacksS (seqLoopS f l w) (seqLoopS g l w)
  | [], _, _ => .inr rfl
  | n :: l, h, w => by
    have ih := seqLoopS_lacks fun q hq => h q (List.mem_cons_of_mem n hq)
    simp only [seqLoopS]
    rcases h n (by simp) w with h1 | h1
    · revert h1
      generalize f n w = x
      rintro (w' | _)
      · exact .inl (.err w')
      · exact .inl .panic
    · rw [h1]
      cases g n w with
      | ok w' => exact ih w'
      | _ => exact .inr rfl

theorem occurLoopS_lacks {σ : Type} {f g : σ → SRes σ} {lo up : Nat} {m : String} (h : ∀ w, BareLacksS (f w) (g w)) : ∀ k cnt w,
    BareLacksS (occurLoopS f lo up m k cnt w) (occurLoopS g lo up m k cnt w)
  | 0, _, _ => .inr rfl
  | k + 1, cnt, w => by
    simp only [occurLoopS]
    rcases h w with h1 | h1
    · revert h1
      generalize f w = x
      rintro (w' | _)
      · exact .inl (.err w')
      · exact .inl .panic
    · rw [h1]
      cases g w with
      | ok w' =>
        dsimp only
        split
        · exact .inr rfl
        · exact occurLoopS_lacks h k _ w'
      | _ => exact .inr rfl

/-! ## The functions -/

theorem fns_bare_deref {env : Env} : ∀ k n c, (fnsBare env k).deref n c = (fns env k).deref n c
  | 0, _, _ => rfl
  | k + 1, n, c => by
    show derefBody env (fnsBare env k) n c = derefBody env (fns env k) n c
    cases n with
    | rule t as =>
      simp only [derefBody]
      cases c.lookupRule env t as with
      | error e => rfl
      | ok a => exact fns_bare_deref k a.1 a.2
    | _ => rfl

theorem fns_bare_chase {env : Env} : ∀ k n c, (fnsBare env k).chase n c = (fns env k).chase n c
  | 0, _, _ => rfl
  | k + 1, n, c => by
    show chaseBody env (fnsBare env k) n c = chaseBody env (fns env k) n c
    cases n with
    | rule t as =>
      simp only [chaseBody]
      cases c.lookupRule env t as with
      | error e => rfl
      | ok a => exact fns_bare_chase k a.1 a.2
    | _ => rfl

/-- What is compared: the functions without the feature, and those with it. -/
structure BareYields (s s' : Rec) : Prop where
  val : ∀ v {n c}, n.freeKeys = true → Ctx.freeKeys c → BareLacks (s.val v n c) (s'.val v n c)
  chf : ∀ t {as} v {c}, Node.freeKeysL as = true → Ctx.freeKeys c → BareLacks (s.chf t as v c) (s'.chf t as v c)
  arr : ∀ {n} w {c}, n.freeKeys = true → Ctx.freeKeys c → BareLacksS (s.arr n w c) (s'.arr n w c)
  map : ∀ {n} w {c}, n.freeKeys = true → Ctx.freeKeys c → BareLacksS (s.map n w c) (s'.map n w c)
  mchf : ∀ t {as} w {c}, Node.freeKeysL as = true → Ctx.freeKeys c → BareLacksS (s.mchf t as w c) (s'.mchf t as w c)
  deref : ∀ n c, s.deref n c = s'.deref n c
  chase : ∀ n c, s.chase n c = s'.chase n c
  key : ∀ v {n c}, n.noCbor false = true → s.val v n c = s'.val v n c

section
variable {env : Env} {s s' : Rec} (he : env.freeKeys) (h : BareYields s s')
include he h

omit h in
theorem look_lacks {σ : Type} {c : Ctx} {t : String} {as : List Node} (ha : Node.freeKeysL as = true) (hc : c.freeKeys) {w : σ}
    {f g : Node × Ctx → SRes σ} (hf : ∀ n d, n.freeKeys = true → Ctx.freeKeys d → BareLacksS (f (n, d)) (g (n, d))) :
    BareLacksS (match c.lookupRule env t as with | .ok a => f a | .error e => .err e w)
      (match c.lookupRule env t as with | .ok a => g a | .error e => .err e w) := by
  cases hl : c.lookupRule env t as with
  | error e => exact .inr rfl
  | ok a =>
    obtain ⟨h1, h2⟩ := lookup_freeKeys he hc ha hl
    exact hf a.1 a.2 h1 h2

omit h in
theorem lookR_lacks {c : Ctx} {t : String} {as : List Node} (ha : Node.freeKeysL as = true) (hc : c.freeKeys)
    {f g : Node × Ctx → Res Unit} (hf : ∀ n d, n.freeKeys = true → Ctx.freeKeys d → BareLacks (f (n, d)) (g (n, d))) :
    BareLacks ((Res.ofExcept (c.lookupRule env t as)).bind f) ((Res.ofExcept (c.lookupRule env t as)).bind g) := by
  cases hl : c.lookupRule env t as with
  | error e => exact .inr rfl
  | ok a =>
    obtain ⟨h1, h2⟩ := lookup_freeKeys he hc ha hl
    exact hf a.1 a.2 h1 h2

omit he in
theorem choiceifyItem_lacks {v : Value} {n : Node} {c : Ctx} (hn : n.freeKeys = true) (hc : c.freeKeys) :
    BareLacks (choiceifyItem s v c n) (choiceifyItem s' v c n) := by
  cases n with
  | keyValue k t y =>
    simp only [Node.freeKeys, Bool.and_eq_true] at hn
    exact h.val v hn.2 hc
  | rule t as => exact h.chf t v hn hc
  | _ => exact h.val v hn hc

omit he in
theorem mapChoiceifyItem_lacks {n : Node} {c : Ctx} (hn : n.freeKeys = true) (hc : c.freeKeys) (w : WMap) :
    BareLacksS (mapChoiceifyItem s c n w) (mapChoiceifyItem s' c n w) := by
  cases n with
  | keyValue k t y =>
    simp only [Node.freeKeys, Bool.and_eq_true] at hn
    exact h.map w hn.2 hc
  | rule t as => exact h.mchf t w hn hc
  | _ => exact h.map w hn hc

omit he in
theorem arrayValue_lacks {n : Node} {c : Ctx} (hn : n.freeKeys = true) (hc : c.freeKeys) (w : WArr) :
    BareLacksS (validateArrayValue env s n w c) (validateArrayValue env s' n w c) := by
  unfold validateArrayValue
  split
  · rename_i x _ _
    rcases h.val x hn hc with h1 | h1
    · revert h1
      generalize s.val x n c = y
      rintro (_ | _)
      · exact .inl (.err w)
      · exact .inl .panic
    · rw [h1]
      exact .inr rfl
  · exact .inr rfl

theorem val_lacks {v : Value} {n : Node} {c : Ctx} (hn : n.freeKeys = true) (hc : c.freeKeys) :
    BareLacks (valBodyBare env s v n c) (valBody env s' v n c) := by
  cases n with
  | ctlCbor n => exact .inl .err
  | choice l => exact choiceLoop_lacks fun n m => h.val v (Node.freeKeysL_mem hn n m) hc
  | map l =>
    simp only [valBodyBare, valBody, validateMap]
    cases v <;> try exact .inr rfl
    rename_i x
    dsimp only
    rcases seqLoopS_lacks (fun n m w => h.map w (Node.freeKeysL_mem hn n m) hc) (WMap.new x) with h1 | h1
    · revert h1
      generalize seqLoopS (fun m w => s.map m w c) l (WMap.new x) = y
      rintro (_ | _)
      · exact .inl .err
      · exact .inl .panic
    · rw [h1]
      exact .inr rfl
  | array l =>
    simp only [valBodyBare, valBody, validateArray]
    cases v <;> try exact .inr rfl
    rename_i x
    dsimp only
    rcases seqLoopS_lacks (fun n m w => h.arr w (Node.freeKeysL_mem hn n m) hc) (WArr.new x) with h1 | h1
    · revert h1
      generalize seqLoopS (fun m w => s.arr m w c) l (WArr.new x) = y
      rintro (_ | _)
      · exact .inl .err
      · exact .inl .panic
    · rw [h1]
      exact .inr rfl
  | rule t as => exact lookR_lacks he hn hc fun n d hn hd => h.val v hn hd
  | group l =>
    match l, hn with
    | [], _ => exact .inr rfl
    | [m], hn => exact h.val v (Node.freeKeysL_mem hn m (by simp)) hc
    | _ :: _ :: _, _ => exact .inr rfl
  | range a b i =>
    simp only [valBodyBare, valBody, validateRange, h.deref]
    exact .inr rfl
  | ctl o a b =>
    refine .inr ?_
    cases o <;>
      simp only [valBodyBare, valBody, validateControl, validateControlSize, validateControlLt, validateControlLe,
        validateControlGt, validateControlGe, h.chase]
  | choiceify t as => exact h.chf t v hn hc
  | choiceifyInline l => exact choiceLoop_lacks fun n m => choiceifyItem_lacks h (Node.freeKeysL_mem hn n m) hc
  | _ => exact .inr rfl

theorem chf_lacks {t : String} {as : List Node} {v : Value} {c : Ctx} (ha : Node.freeKeysL as = true) (hc : c.freeKeys) :
    BareLacks (chfBody env s t as v c) (chfBody env s' t as v c) := by
  refine lookR_lacks he ha hc fun n d hn hd => ?_
  cases n with
  | group l => exact choiceLoop_lacks fun n m => choiceifyItem_lacks h (Node.freeKeysL_mem hn n m) hd
  | rule t as => exact h.chf t v hn hd
  | _ => exact .inr rfl

theorem arr_lacks {n : Node} {w : WArr} {c : Ctx} (hn : n.freeKeys = true) (hc : c.freeKeys) :
    BareLacksS (arrBody env s n w c) (arrBody env s' n w c) := by
  cases n with
  | occur o m =>
    have hm : m.freeKeys = true := hn
    exact occurLoopS_lacks (fun w => h.arr w hm hc) _ _ _
  | keyValue k t y =>
    simp only [Node.freeKeys, Bool.and_eq_true] at hn
    exact arrayValue_lacks h hn.2 hc w
  | rule t as => exact look_lacks he hn hc fun n d hn hd => h.arr w hn hd
  | unwrap t as =>
    refine look_lacks he hn hc (f := fun a => validateArrayUnwrap s a.1 w a.2) (g := fun a => validateArrayUnwrap s' a.1 w a.2)
      fun n d hn hd => ?_
    cases n with
    | array l => exact seqLoopS_lacks (fun n m w => h.arr w (Node.freeKeysL_mem hn n m) hd) w
    | _ => exact .inr rfl
  | choice l => exact choiceLoopS_lacks rfl (fun n m w => h.arr w (Node.freeKeysL_mem hn n m) hc) w
  | group l =>
    simp only [arrBody, validateArrayGroup]
    rcases seqLoopS_lacks (fun n m w => h.arr w (Node.freeKeysL_mem hn n m) hc) w.snapshot with h1 | h1
    · revert h1
      generalize seqLoopS (fun m w => s.arr m w c) l w.snapshot = y
      rintro (w' | _)
      · dsimp only [WArr.rewind]
        cases w'.snaps with
        | nil => exact .inl .panic
        | cons a l => exact .inl (.err _)
      · exact .inl .panic
    · rw [h1]
      exact .inr rfl
  | _ => exact arrayValue_lacks h hn hc w

theorem mchf_lacks {t : String} {as : List Node} {w : WMap} {c : Ctx} (ha : Node.freeKeysL as = true) (hc : c.freeKeys) :
    BareLacksS (mchfBody env s t as w c) (mchfBody env s' t as w c) := by
  refine look_lacks he ha hc (f := fun a => match a.1 with
      | .group members => validateMapChoiceifyMembers s members w a.2
      | .rule name' args' => s.mchf name' args' w a.2
      | _ => .err (.structural "improper map choiceify target") w)
    (g := fun a => match a.1 with
      | .group members => validateMapChoiceifyMembers s' members w a.2
      | .rule name' args' => s'.mchf name' args' w a.2
      | _ => .err (.structural "improper map choiceify target") w) fun n d hn hd => ?_
  cases n with
  | group l => exact choiceLoopS_lacks rfl (fun n m w => mapChoiceifyItem_lacks h (Node.freeKeysL_mem hn n m) hd w) w
  | rule t as => exact h.mchf t w hn hd
  | _ => exact .inr rfl

theorem map_lacks {n : Node} {w : WMap} {c : Ctx} (hn : n.freeKeys = true) (hc : c.freeKeys) :
    BareLacksS (mapBody env s n w c) (mapBody env s' n w c) := by
  cases n with
  | occur o m =>
    have hm : m.freeKeys = true := hn
    exact occurLoopS_lacks (fun w => h.map w hm hc) _ _ _
  | keyValue k t y =>
    simp only [Node.freeKeys, Bool.and_eq_true] at hn
    have h1 : (fun key => s.val key k c) = fun key => s'.val key k c := funext fun v => h.key v hn.1
    have h2 : validateMapKey env s k w c = validateMapKey env s' k w c := by
      cases k <;> first | rfl | simp only [validateMapKey, mapSearch, h1]
    simp only [mapBody, validateMapKeyvalue, h2]
    cases validateMapKey env s' k w c with
    | ok a =>
      dsimp only
      rcases h.val a.2 hn.2 hc with h3 | h3
      · revert h3
        generalize s.val a.2 t c = z
        rintro (_ | _)
        · cases y <;> exact .inl (.err w)
        · exact .inl .panic
      · rw [h3]
        exact .inr rfl
    | _ => exact .inr rfl
  | rule t as => exact look_lacks he hn hc fun n d hn hd => h.map w hn hd
  | unwrap t as =>
    refine look_lacks he hn hc (f := fun a => validateMapUnwrap s a.1 w a.2) (g := fun a => validateMapUnwrap s' a.1 w a.2)
      fun n d hn hd => ?_
    cases n with
    | map l => exact seqLoopS_lacks (fun n m w => h.map w (Node.freeKeysL_mem hn n m) hd) w
    | _ => exact .inr rfl
  | choice l => exact choiceLoopS_lacks rfl (fun n m w => h.map w (Node.freeKeysL_mem hn n m) hc) w
  | choiceifyInline l => exact choiceLoopS_lacks rfl (fun n m w => h.map w (Node.freeKeysL_mem hn n m) hc) w
  | choiceify t as => exact h.mchf t w hn hc
  | group l =>
    simp only [mapBody, validateMapGroup]
    rcases seqLoopS_lacks (fun n m w => h.map w (Node.freeKeysL_mem hn n m) hc) w.snapshot with h1 | h1
    · revert h1
      generalize seqLoopS (fun m w => s.map m w c) l w.snapshot = y
      rintro (w' | _)
      · dsimp only [WMap.rewind]
        cases w'.snaps with
        | nil => exact .inl .panic
        | cons a l => exact .inl (.err _)
      · exact .inl .panic
    · rw [h1]
      exact .inr rfl
  | _ => exact .inr rfl

end

theorem fns_yields {env : Env} (he : env.freeKeys) : ∀ k, BareYields (fnsBare env k) (fns env k)
  | 0 => ⟨fun _ _ _ _ _ => .inr rfl, fun _ _ _ _ _ _ => .inr rfl, fun _ _ _ _ => .inr rfl, fun _ _ _ _ => .inr rfl,
      fun _ _ _ _ _ _ => .inr rfl, fun _ _ => rfl, fun _ _ => rfl, fun _ _ _ _ => rfl⟩
  | k + 1 =>
    have ih := fns_yields he k
    ⟨fun _ _ _ h1 h2 => val_lacks he ih h1 h2, fun _ _ _ _ h1 h2 => chf_lacks he ih h1 h2,
      fun _ _ h1 h2 => arr_lacks he ih h1 h2, fun _ _ h1 h2 => map_lacks he ih h1 h2,
      fun _ _ _ _ h1 h2 => mchf_lacks he ih h1 h2, fun n c => fns_bare_deref (k + 1) n c, fun n c => fns_bare_chase (k + 1) n c,
      fun v _ _ h1 => (fns_bare (nm := false) (env := env) (fun h => (nomatch h)) (k + 1)).val v h1 (fun h => (nomatch h))⟩

/-- Without the feature nothing panics either. -/
theorem bare_good {env : Env} : ∀ k, GoodRec env (fun _ => True) (fnsBare env k)
  | 0 => GoodRec.bot env _
  | k + 1 =>
    have ih := step_good (OkErr.triv env) (bare_good k)
    { ih with
      val := fun v n c hv => by
        show (valBodyBare env (fnsBare env k) v n c).Safe _ _
        have := ih.val v n c hv
        cases n with
        | ctlCbor n => trivial
        | _ => exact this }

end Cddl
