import Verif.Spec.KeyReach
import Verif.Proofs.Fatal
import Verif.Proofs.WriteOut

/-! # Fatal errors are not masked where keys lead to rules that exist -/

namespace Cddl

set_option linter.unusedSectionVars false

/-- In the scope `c`, the key `n` leads to names of `S` only. -/
inductive KeySafe (S : String → Prop) : Ctx → Node → Prop
  | closed {c : Ctx} {n : Node} : (∀ s ∈ n.names, S s ∧ c.param s = none) → KeySafe S c n
  | param {g : List (String × Node)} {p : Ctx} {d : Nat} {s : String} {a : Node} (as : List Node) :
      gmapFind g s = some a → KeySafe S p a → KeySafe S (.frame g p d) (.rule s as)

/-- The scope of a rule whose parameters `F` may be keys. -/
inductive KeyScope (env : Env) (S : String → Prop) (P : String → List String) : Ctx → List String → Prop
  | root (d : Nat) : KeyScope env S P (.root d) []
  | frame {g : List (String × Node)} {p : Ctx} {F F' : List String} (d : Nat) : KeyScope env S P p F →
      (∀ x ∈ g, x.2.KeysReach env.lookup S P F) → (∀ s ∈ F', ∃ a, gmapFind g s = some a ∧ KeySafe S p a) →
      (∀ s, S s → gmapFind g s = none) → KeyScope env S P (.frame g p d) F'

/-- The node stands in a scope and is as its keys should be. -/
def KeyAt (env : Env) (S : String → Prop) (P : String → List String) (c : Ctx) (n : Node) : Prop :=
  ∃ F, KeyScope env S P c F ∧ n.KeysReach env.lookup S P F

section
variable {env env' : Env} {S : String → Prop} {P : String → List String}

theorem keysReachL_mem {F : List String} : ∀ {l : List Node}, Node.KeysReachL env.lookup S P F l →
    ∀ n ∈ l, n.KeysReach env.lookup S P F
  | n :: ns, h, m, hm => by
    simp only [Node.KeysReachL] at h
    rcases List.mem_cons.mp hm with rfl | hm
    · exact h.1
    · exact keysReachL_mem h.2 m hm

theorem atL {c : Ctx} {l : List Node} (h : ∃ F, KeyScope env S P c F ∧ Node.KeysReachL env.lookup S P F l) :
    ∀ m ∈ l, KeyAt env S P c m := by
  obtain ⟨F, h1, h2⟩ := h
  exact fun m hm => ⟨F, h1, keysReachL_mem h2 m hm⟩

theorem KeyScope.param {c : Ctx} {F : List String} (h : KeyScope env S P c F) {s : String} (hs : S s) : c.param s = none := by
  cases h with
  | root => rfl
  | frame _ _ _ _ h => exact h s hs

theorem KeyScope.safe {c : Ctx} {F : List String} (h : KeyScope env S P c F) {n : Node} (hn : KeyName S F n) :
    KeySafe S c n := by
  rcases hn with hn | ⟨s, as, rfl, hs⟩
  · exact .closed fun s hs => ⟨hn s hs, h.param (hn s hs)⟩
  · cases h with
    | root => cases hs
    | frame _ _ _ h _ =>
      obtain ⟨a, h1, h2⟩ := h s hs
      exact .param as h1 h2

theorem KeyAt.value {c : Ctx} {k v : Node} {y : Bool} (h : KeyAt env S P c (.keyValue k v y)) : KeyAt env S P c v := by
  obtain ⟨F, h1, h2⟩ := h
  exact ⟨F, h1, h2.2⟩

theorem KeyAt.key {c : Ctx} {k v : Node} {y : Bool} (h : KeyAt env S P c (.keyValue k v y)) : KeySafe S c k := by
  obtain ⟨F, h1, h2⟩ := h
  exact h1.safe h2.1

/-- A key that leads to rules of `S` only means the same where these are the same. -/
theorem keySafe_val (E : Repairs env env') (hk : KeysLead env.lookup S P) (hs : ∀ s, S s → env'.lookup s = env.lookup s)
    {c : Ctx} {n : Node} (h : KeySafe S c n) (v : Value) :
    ∀ k, (fns env k).val v n c = .fuel ∨ (lim env').val v n c = (fns env k).val v n c := by
  induction h with
  | @closed c n h =>
    intro k
    let G : String → String → Prop := fun s s' => s = s' ∧ S s
    have R : EnvRel G false env env' := by
      refine ⟨?_, E.regex, E.cbor, E.fmt⟩
      rintro s s' ⟨rfl, h1⟩
      cases hl : env.lookup s with
      | error e => exact .inl ⟨e, rfl, (hs s h1).trans hl⟩
      | ok d =>
        refine .inr ⟨d, d, rfl, (hs s h1).trans hl, rfl, Cong.refl fun t ht => ?_⟩
        exact scopeRel_self fun htp => ⟨rfl, hk.closed s d h1 hl t ht htp⟩
    have := (fns_sim (congSim R) k).val c n c n
      ⟨_, .free rfl, Cong.refl (n := n) fun s hs => ⟨(h s hs).2, (h s hs).2, rfl, (h s hs).1⟩, trivial⟩ v
    by_cases hf : (fns env k).val v n c = .fuel
    · exact .inl hf
    · right
      have := this hf
      simpa only [Bool.not_false, Res.er_true] using this
  | @param g p d s a as h1 _ ih =>
    intro k
    cases k with
    | zero => exact .inl rfl
    | succ k =>
      have e1 : (lim env').val v (.rule s as) (.frame g p d) = (lim env').val v a p := by
        rw [val_eq]
        simp only [valBody, validateRule, Ctx.lookupRule, h1, Res.ofExcept, Res.bind]
      have e2 : (fns env (k + 1)).val v (.rule s as) (.frame g p d) = (fns env k).val v a p := by
        simp only [fns, step, valBody, validateRule, Ctx.lookupRule, h1, Res.ofExcept, Res.bind]
      rw [e1, e2]
      exact ih k

/-- What is shown about the functions of the first environment. -/
structure KeyRec (env env' : Env) (S : String → Prop) (P : String → List String) (r : Rec) : Prop where
  val : ∀ v n c, KeyAt env S P c n → RFat (r.val v n c) ((lim env').val v n c)
  arr : ∀ n w c, KeyAt env S P c n → SFat (r.arr n w c) ((lim env').arr n w c)
  map : ∀ n w c, KeyAt env S P c n → SFat (r.map n w c) ((lim env').map n w c)
  chf : ∀ s as v c, KeyAt env S P c (.rule s as) → RFat (r.chf s as v c) ((lim env').chf s as v c)
  mchf : ∀ s as w c, KeyAt env S P c (.rule s as) → SFat (r.mchf s as w c) ((lim env').mchf s as w c)
  deref : ∀ n c, KeyAt env S P c n → RFat (r.deref n c) ((lim env').deref n c)
  chase : ∀ n c, KeyAt env S P c n → RFat (r.chase n c) ((lim env').chase n c)
  key : ∀ v n c, KeySafe S c n → r.val v n c = .fuel ∨ (lim env').val v n c = r.val v n c

/-- Resolving a name. -/
inductive LookKey (env env' : Env) (S : String → Prop) (P : String → List String) (c : Ctx) (s : String) (as : List Node) : Prop
  | fatal {e : Err} : c.lookupRule env s as = .error e → e.isFatal = true → LookKey env env' S P c s as
  | error {e : Err} : c.lookupRule env s as = .error e → c.lookupRule env' s as = .error e → LookKey env env' S P c s as
  | ok {n : Node} {d : Ctx} : c.lookupRule env s as = .ok (n, d) → c.lookupRule env' s as = .ok (n, d) →
      KeyAt env S P d n → LookKey env env' S P c s as

variable (E : Repairs env env') (hk : KeysLead env.lookup S P)
include E hk

theorem look_key {c : Ctx} {s : String} {as : List Node} (ha : KeyAt env S P c (.rule s as)) : LookKey env env' S P c s as := by
  obtain ⟨F, hc, ha⟩ := ha
  cases hp : c.param s with
  | some a =>
    cases hc with
    | root _ => cases hp
    | frame _ hpp hg _ _ =>
      simp only [Ctx.param] at hp
      obtain ⟨t, ht⟩ := gmapFind_mem hp
      exact .ok (by simp only [Ctx.lookupRule, hp]) (by simp only [Ctx.lookupRule, hp]) ⟨_, hpp, hg _ ht⟩
  | none =>
    have e1 := lookupRule_global (env := env) (as := as) hp
    have e2 := lookupRule_global (env := env') (as := as) hp
    rcases E.look s with h | ⟨e, h, hf⟩
    · rw [h] at e2
      cases hl : env.lookup s with
      | error e =>
        rw [hl] at e1 e2
        exact .error e1 e2
      | ok d =>
        rw [hl] at e1 e2
        simp only [Except.bind, Ctx.derive] at e1 e2
        by_cases har : d.params.length = as.length
        · rw [if_neg (by simp [har])] at e1 e2
          simp only [Ctx.incDepth] at e1 e2
          by_cases hdep : c.depth ≥ maxDepth
          · rw [if_pos hdep] at e1
            exact .fatal e1 rfl
          · rw [if_neg hdep] at e1 e2
            refine .ok e1 e2 ⟨P s, .frame _ hc (fun x hx => ?_) (fun p hp => ?_) (fun t ht => ?_), hk.rules s d hl⟩
            · exact keysReachL_mem ha.1 _ (List.of_mem_zip hx).2
            · obtain ⟨a, h1, h2⟩ := ha.2 d hl har p hp
              exact ⟨a, (gmapFind_argFor _ _).trans h1, hc.safe h2⟩
            · exact gmapFind_none fun hm => hk.params s d hl t hm ht
        · rw [if_pos (by simpa using har)] at e1
          exact .fatal e1 rfl
    · rw [h] at e1
      exact .fatal e1 hf

variable {r : Rec} (H : KeyRec env env' S P r)
include H

theorem look_key_bind {α : Type} {c : Ctx} (s : String) {as : List Node}
    (ha : KeyAt env S P c (.rule s as)) {f g : Node × Ctx → Res α}
    (h : ∀ n d, KeyAt env S P d n → RFat (f (n, d)) (g (n, d))) :
    RFat ((Res.ofExcept (c.lookupRule env s as)).bind f) ((Res.ofExcept (c.lookupRule env' s as)).bind g) := by
  cases look_key E hk ha with
  | fatal h1 h2 => rw [h1]; exact .inr (.inl ⟨_, rfl, h2⟩)
  | error h1 h2 => rw [h1, h2]; exact .refl _
  | ok h1 h2 h3 => rw [h1, h2]; exact h _ _ h3

theorem look_key_match {σ : Type} {c : Ctx} (s : String) {as : List Node}
    (ha : KeyAt env S P c (.rule s as)) (w : σ) {f g : Node × Ctx → SRes σ}
    (h : ∀ n d, KeyAt env S P d n → SFat (f (n, d)) (g (n, d))) :
    SFat (match c.lookupRule env s as with | .ok a => f a | .error e => .err e w)
      (match c.lookupRule env' s as with | .ok a => g a | .error e => .err e w) := by
  cases look_key E hk ha with
  | fatal h1 h2 => rw [h1]; exact .inr (.inl ⟨_, _, rfl, h2⟩)
  | error h1 h2 => rw [h1, h2]; exact .refl _
  | ok h1 h2 h3 => rw [h1, h2]; exact h _ _ h3

theorem arrayValue_key {c : Ctx} {n : Node} (hn : KeyAt env S P c n) (w : WArr) :
    SFat (validateArrayValue env r n w c) (validateArrayValue env' (lim env') n w c) := by
  unfold validateArrayValue
  cases w.array with
  | nil => rw [E.fmt]; exact .refl _
  | cons x xs =>
    dsimp only
    rcases H.val x n c hn with (e | e) | ⟨e, he, hf⟩ | e
    · rw [e]; exact .inl (.inl rfl)
    · rw [e]; exact .inl (.inr rfl)
    · rw [he]; exact .inr (.inl ⟨e, w, rfl, hf⟩)
    · rw [e]; exact .refl _

theorem arr_key {n : Node} (w : WArr) {c : Ctx} (hn : KeyAt env S P c n) :
    SFat (arrBody env r n w c) ((lim env').arr n w c) := by
  rw [arr_eq]
  have dflt := fun m hm => arrayValue_key E hk H (c := c) (n := m) hm w
  cases n <;> try exact dflt _ hn
  all_goals simp only [arrBody]
  case occur o n =>
    unfold validateArrayOccur
    rw [E.fmt]
    exact occurLoopS_fat (fun w => H.arr n w _ hn) _ _ _
  case keyValue k v y => exact dflt _ hn.value
  case rule s as => exact look_key_match E hk H s hn w fun n d h2 => H.arr _ _ _ h2
  case unwrap s as =>
    refine look_key_match E hk H s hn w fun n d h2 => ?_
    cases n <;> try exact .refl _
    exact seqLoopS_fat _ fun m hm w => H.arr _ _ _ (atL h2 m hm)
  case choice l =>
    exact choiceLoopS_fat (fun _ h => h) _ fun m hm w => H.arr _ _ _ (atL hn m hm)
  case group l =>
    unfold validateArrayGroup
    rcases seqLoopS_fat (l := l) w.snapshot (fun m hm w => H.arr m w c (atL hn m hm)) with (e | e) | ⟨e, w', he, hf⟩ | e
    · rw [e]; exact .inl (.inl rfl)
    · rw [e]; exact .inl (.inr rfl)
    · rw [he]
      dsimp only
      cases hrw : w'.rewind with
      | ok w'' => exact .inr (.inl ⟨e, w'', rfl, hf⟩)
      | err e2 w2 => unfold WArr.rewind at hrw; split at hrw <;> cases hrw
      | panic => exact .inl (.inr rfl)
      | fuel => unfold WArr.rewind at hrw; split at hrw <;> cases hrw
    · rw [e]; exact .refl _

theorem mapKey_key {c : Ctx} {n : Node} (hn : KeySafe S c n) (w : WMap) :
    RFat (validateMapKey env r n w c) (validateMapKey env' (lim env') n w c) := by
  have search : RFat (mapSearch env r n w c) (mapSearch env' (lim env') n w c) := by
    unfold mapSearch
    rw [E.fmt]
    generalize w.map = l
    induction l with
    | nil => exact .refl _
    | cons p l ih =>
      obtain ⟨k, v⟩ := p
      simp only [mapSearchLoop]
      rcases H.key k n c hn with e | e
      · rw [e]; exact .inl (.inl rfl)
      · rw [e]
        cases r.val k n c with
        | err e => exact ih
        | _ => exact .refl _
  cases n <;> try exact search
  simp only [validateMapKey, mapSearchLiteral]
  rw [E.fmt]
  exact .refl _

theorem map_key {n : Node} (w : WMap) {c : Ctx} (hn : KeyAt env S P c n) :
    SFat (mapBody env r n w c) ((lim env').map n w c) := by
  rw [map_eq]
  have hst : ∀ e : Err, e.isFatal = true → (!e.isMismatch) = true := fun e h => by simp [isMismatch_fatal h]
  cases n <;> try exact .refl _
  all_goals simp only [mapBody]
  case occur o n =>
    unfold validateMapOccur
    rw [E.fmt]
    exact occurLoopS_fat (fun w => H.map n w _ hn) _ _ _
  case keyValue k v y =>
    unfold validateMapKeyvalue
    rcases mapKey_key E hk H (c := c) hn.key w with (e | e) | ⟨e, he, hf⟩ | e
    · rw [e]; exact .inl (.inl rfl)
    · rw [e]; exact .inl (.inr rfl)
    · rw [he]; exact .inr (.inl ⟨e, w, rfl, hf⟩)
    · rw [e]
      cases validateMapKey env r k w c with
      | ok p =>
        dsimp only
        rcases H.val p.2 v c hn.value with (e | e) | ⟨e, he, hf⟩ | e
        · rw [e]; exact .inl (.inl rfl)
        · rw [e]; exact .inl (.inr rfl)
        · rw [he]
          cases y <;> cases e <;> first | (cases hf; done) | exact .inr (.inl ⟨_, w, rfl, rfl⟩)
        · rw [e]; exact .refl _
      | _ => exact .refl _
  case rule s as => exact look_key_match E hk H s hn w fun n d h2 => H.map _ _ _ h2
  case unwrap s as =>
    refine look_key_match E hk H s hn w fun n d h2 => ?_
    cases n <;> try exact .refl _
    exact seqLoopS_fat _ fun m hm w => H.map _ _ _ (atL h2 m hm)
  case choice l => exact choiceLoopS_fat hst _ fun m hm w => H.map _ _ _ (atL hn m hm)
  case choiceifyInline l => exact choiceLoopS_fat hst _ fun m hm w => H.map _ _ _ (atL hn m hm)
  case choiceify s as => exact H.mchf _ _ _ _ hn
  case group l =>
    unfold validateMapGroup
    rcases seqLoopS_fat (l := l) w.snapshot (fun m hm w => H.map m w c (atL hn m hm)) with
      (e | e) | ⟨e, w', he, hf⟩ | e
    · rw [e]; exact .inl (.inl rfl)
    · rw [e]; exact .inl (.inr rfl)
    · rw [he]
      dsimp only
      cases hrw : w'.rewind with
      | ok w'' => exact .inr (.inl ⟨e, w'', by rw [eraseMapcut_fatal hf], hf⟩)
      | err e2 w2 => unfold WMap.rewind at hrw; split at hrw <;> cases hrw
      | panic => exact .inl (.inr rfl)
      | fuel => unfold WMap.rewind at hrw; split at hrw <;> cases hrw
    · rw [e]; exact .refl _

theorem members_key {l : List Node} (v : Value) {c : Ctx} (hn : ∀ m ∈ l, KeyAt env S P c m) :
    RFat (validateChoiceifyMembers r l v c) (validateChoiceifyMembers (lim env') l v c) := by
  refine choiceLoop_fat fun m hm => ?_
  have hm := hn m hm
  cases m <;> try exact H.val _ _ _ hm
  case keyValue k w y => exact H.val _ _ _ hm.value
  case rule s as => exact H.chf _ _ _ _ hm

theorem mmembers_key {l : List Node} (w : WMap) {c : Ctx} (hn : ∀ m ∈ l, KeyAt env S P c m) :
    SFat (validateMapChoiceifyMembers r l w c) (validateMapChoiceifyMembers (lim env') l w c) := by
  refine choiceLoopS_fat (fun e h => by simp [isMismatch_fatal h]) _ fun m hm w => ?_
  have hm := hn m hm
  cases m <;> try exact H.map _ _ _ hm
  case keyValue k w y => exact H.map _ _ _ hm.value
  case rule s as => exact H.mchf _ _ _ _ hm

theorem chf_key {s : String} {as : List Node} (v : Value) {c : Ctx} (hn : KeyAt env S P c (.rule s as)) :
    RFat (chfBody env r s as v c) ((lim env').chf s as v c) := by
  rw [chf_eq]
  refine look_key_bind E hk H s hn fun n d h2 => ?_
  cases n <;> try exact .refl _
  case group l => exact members_key E hk H v (atL h2)
  case rule s' as' => exact H.chf _ _ _ _ h2

theorem mchf_key {s : String} {as : List Node} (w : WMap) {c : Ctx} (hn : KeyAt env S P c (.rule s as)) :
    SFat (mchfBody env r s as w c) ((lim env').mchf s as w c) := by
  rw [mchf_eq]
  refine look_key_match E hk H s hn w fun n d h2 => ?_
  cases n <;> try exact .refl _
  case group l => exact mmembers_key E hk H w (atL h2)
  case rule s' as' => exact H.mchf _ _ _ _ h2

theorem control_key {o : CtlOp} {t a : Node} (v : Value) {c : Ctx} (ht : KeyAt env S P c t)
    (ha : KeyAt env S P c a) : RFat (validateControl env r o t a v c) (validateControl env' (lim env') o t a v c) := by
  have hl : ∀ op n, limitOf env op n = limitOf env' op n := fun op n => by
    cases n <;> simp only [limitOf, E.fmt]
  have hz : ∀ n, normalizeSizeRange env n = normalizeSizeRange env' n := fun n => by
    unfold normalizeSizeRange; rw [E.fmt]
  cases o
  all_goals
    simp only [validateControl, validateControlSize, validateControlLt, validateControlLe, validateControlGt,
      validateControlGe]
    refine (H.chase a c ha).bind fun an _ => ?_
    simp only [hl, hz, E.fmt]
    refine (RFat.refl _).bind fun x _ => (H.chase t c ht).bind fun tn _ => .refl _

theorem val_key {n : Node} (v : Value) {c : Ctx} (hn : KeyAt env S P c n) :
    RFat (valBody env r v n c) ((lim env').val v n c) := by
  rw [val_eq]
  cases n <;> try exact .refl _
  all_goals simp only [valBody]
  case literal l => unfold validateLiteral; rw [E.fmt]; exact .refl _
  case rule s as => exact look_key_bind E hk H s hn fun n d h2 => H.val _ _ _ h2
  case choice l => exact choiceLoop_fat fun m hm => H.val _ _ _ (atL hn m hm)
  case map l =>
    cases v <;> try exact .refl _
    rename_i m
    simp only [validateMap]
    rcases seqLoopS_fat (l := l) (WMap.new m) (fun n hm w => H.map n w c (atL hn n hm)) with
      (e | e) | ⟨e, w', he, hf⟩ | e
    · rw [e]; exact .inl (.inl rfl)
    · rw [e]; exact .inl (.inr rfl)
    · rw [he]; exact .inr (.inl ⟨e, by dsimp only; rw [eraseMapcut_fatal hf], hf⟩)
    · rw [e]; exact .refl _
  case array l =>
    cases v <;> try exact .refl _
    rename_i m
    simp only [validateArray]
    rcases seqLoopS_fat (l := l) (WArr.new m) (fun n hm w => H.arr n w c (atL hn n hm)) with
      (e | e) | ⟨e, w', he, hf⟩ | e
    · rw [e]; exact .inl (.inl rfl)
    · rw [e]; exact .inl (.inr rfl)
    · rw [he]; exact .inr (.inl ⟨e, rfl, hf⟩)
    · rw [e]; exact .refl _
  case group l =>
    match l, hn with
    | [], _ => exact .refl _
    | [m], hn => exact H.val _ _ _ (atL hn m (by simp))
    | _ :: _ :: _, _ => exact .refl _
  case range a b i =>
    obtain ⟨F, hS, hn1, hn2⟩ := hn
    unfold validateRange
    rw [E.fmt]
    exact (H.deref a c ⟨F, hS, hn1⟩).bind fun _ _ => (H.deref b c ⟨F, hS, hn2⟩).bind fun _ _ => .refl _
  case ctl o t a =>
    obtain ⟨F, hS, hn1, hn2⟩ := hn
    exact control_key E hk H v ⟨F, hS, hn1⟩ ⟨F, hS, hn2⟩
  case ctlRegexp p => unfold validateControlRegexp; rw [E.regex]; exact .refl _
  case ctlCbor n =>
    unfold validateControlCbor
    rw [E.cbor]
    cases v <;> try exact .refl _
    rename_i b
    dsimp only
    cases env'.cborDecode b with
    | error m => exact .refl _
    | ok x => exact (RFat.refl _).bind fun y _ => H.val _ _ _ hn
  case choiceify s as => exact H.chf _ _ _ _ hn
  case choiceifyInline l => exact members_key E hk H v (atL hn)

theorem deref_key {n : Node} {c : Ctx} (hn : KeyAt env S P c n) :
    RFat (derefBody env r n c) ((lim env').deref n c) := by
  rw [deref_eq]
  cases n <;> try exact .refl _
  case rule s as => exact look_key_bind E hk H s hn fun n d h2 => H.deref _ _ h2

theorem chase_key {n : Node} {c : Ctx} (hn : KeyAt env S P c n) :
    RFat (chaseBody env r n c) ((lim env').chase n c) := by
  rw [chase_eq]
  cases n <;> try exact .refl _
  case rule s as => exact look_key_bind E hk H s hn fun n d h2 => H.chase _ _ h2
end

theorem fns_key {env env' : Env} {S : String → Prop} {P : String → List String} (E : Repairs env env')
    (hk : KeysLead env.lookup S P) (hs : ∀ s, S s → env'.lookup s = env.lookup s) : ∀ k, KeyRec env env' S P (fns env k)
  | 0 => by
    constructor
    all_goals intros
    all_goals exact .inl (by first | exact .inl rfl | rfl)
  | k + 1 => by
    have H := fns_key E hk hs k
    exact {
      val := fun v _ _ hn => val_key E hk H v hn
      arr := fun _ w _ hn => arr_key E hk H w hn
      map := fun _ w _ hn => map_key E hk H w hn
      chf := fun _ _ v _ hn => chf_key E hk H v hn
      mchf := fun _ _ w _ hn => mchf_key E hk H w hn
      deref := fun _ _ hn => deref_key E hk H hn
      chase := fun _ _ hn => chase_key E hk H hn
      key := fun v _ c hn => keySafe_val E hk hs hn v (k + 1) }

/-- A result that is not a fatal error does not depend on rules that are missing. -/
theorem validate_key {env env' : Env} {S : String → Prop} {P : String → List String} (E : Repairs env env')
    (hk : KeysLead env.lookup S P) (hs : ∀ s, S s → env'.lookup s = env.lookup s)
    {c : Ctx} (hok : CtxOK c) {n : Node} (hn : KeyAt env S P c n) {v : Value} (hv : v.WF) :
    (∃ e, validate env v n c = .err e ∧ e.isFatal = true) ∨ validate env' v n c = validate env v n c := by
  obtain ⟨k, hk'⟩ := (lim_ev env).val v n c
  have h1 := (fns_key E hk hs k).val v n c hn
  have h2 := hk' k (Nat.le_refl _)
  dsimp only at h2
  rw [h2] at h1
  rcases h1 with (h | h) | h | h
  · exact absurd h (lim_val_returns env v n hok)
  · have := (lim_good (OkErr.triv env)).val v n c hv
    rw [h] at this
    exact this.elim
  · exact .inl h
  · exact .inr h

end Cddl
