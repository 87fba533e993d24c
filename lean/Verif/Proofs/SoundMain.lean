import Verif.Proofs.SoundLeaf

/-! # Soundness of matching: the induction on the step budget -/

namespace Cddl

set_option linter.unusedSectionVars false

/-- What is shown of an array entry. -/
structure ArrSpec (env : Env) (c : Ctx) (n : Node) (k : Kind) (w : WArr) (r : SRes WArr) : Prop where
  gives : k.sound = true → r.Gives fun w' => ∃ xs, ArrEats w xs w' ∧ Item env c.scope n xs
  held : k.logged = true → r.Ends (ArrHeld w)
  fails : k.atomic = true → r.FailsAt w

/-- Once the entry has matched, or does not match, the key is no longer in the map. -/
def SRes.Absent (r : SRes WMap) (l : Literal) : Prop :=
  match r with
  | .ok w => ∀ p ∈ w.map, p.1 ≠ l.toValue
  | .err e w => e.isMismatch = true → ∀ p ∈ w.map, p.1 ≠ l.toValue
  | _ => True

/-- What is shown of a map entry. -/
structure MapSpec (env : Env) (c : Ctx) (n : Node) (k : Kind) (w : WMap) (r : SRes WMap) : Prop where
  gives : k.sound = true → r.Gives fun w' => ∃ l, MapEats w l w' ∧ MItem env c.scope n l
  held : k.logged = true → r.Ends (MapHeld w)
  fails : k.atomic = true → r.FailsAt w
  uncut : k.uncut = true → r.Uncut
  absent : ∀ l, .cut l ∈ n.cuts → r.Absent l

/-- The recursive functions are sound. -/
structure SoundRec (env : Env) (J : Judgement) (r : Rec) : Prop where
  deref : ∀ n c l, r.deref n c = .ok l → Reaches env c.scope n (.literal l)
  chase : ∀ n c n', r.chase n c = .ok n' → Reaches env c.scope n n'
  val : ∀ v n c, ScopeOk J c → n.typeOk J = true → v.WF → r.val v n c = .ok () → Sat env c.scope n v
  chf : ∀ s as v c, ScopeOk J c → J.alt s = true → Node.argsOk J as = true → v.WF → r.chf s as v c = .ok () →
    OneOf env c.scope s as v
  arr : ∀ n w c k, ScopeOk J c → w.Inv k → ArrSpec env c n (n.kind J .item) w (r.arr n w c)
  map : ∀ n w c k, ScopeOk J c → w.Inv k → MapSpec env c n (n.kind J .member) w (r.map n w c)

theorem Kind.none_le (k : Kind) : Kind.none.le k := ⟨nofun, nofun, nofun, nofun⟩

theorem SeqP.seq {env : Env} {c : Scope} {l : List Node} {xs : List Value} (h : SeqP (Item env c) l xs) : Seq env c l xs := by
  induction h with
  | nil => exact .nil _
  | cons h _ ih => exact .cons h ih

theorem SeqP.mseq {env : Env} {c : Scope} {l : List Node} {xs : List Mark} (h : SeqP (MItem env c) l xs) :
    MSeq env c l xs := by
  induction h with
  | nil => exact .nil _
  | cons h _ ih => exact .cons h ih

theorem RepP.rep {env : Env} {c : Scope} {n : Node} {k : Nat} {xs : List Value} (h : RepP (Item env c n) k xs) :
    Rep env c n k xs := by
  induction h with
  | zero => exact .zero _ _
  | succ h _ ih => exact .succ h ih

theorem RepP.mrep {env : Env} {c : Scope} {n : Node} {k : Nat} {xs : List Mark} (h : RepP (MItem env c n) k xs) :
    MRep env c n k xs := by
  induction h with
  | zero => exact .zero _ _
  | succ h _ ih => exact .succ h ih

theorem cuts_literal {kn t : Node} {cut : Bool} {l : Literal} (h : .cut l ∈ (Node.keyValue kn t cut).cuts) :
    kn = .literal l ∧ cut = true := by
  cases cut with
  | false => cases kn <;> cases h
  | true =>
    cases kn <;> first | (cases h; done) | skip
    simp only [Node.cuts, List.mem_singleton, Mark.cut.injEq] at h
    exact ⟨by rw [h], rfl⟩

theorem literal_key {env : Env} {r : Rec} {l : Literal} {w : WMap} {c : Ctx} {x v : Value} (h : validateMapKey env r (.literal l) w c = .ok (x, v)) :
    x = l.toValue := by
  simp only [validateMapKey, mapSearchLiteral] at h
  split at h <;> cases h
  rfl

theorem literal_none {env : Env} {r : Rec} {l : Literal} {w : WMap} {c : Ctx} {e : Err} {k : Nat} (hw : w.Inv k)
    (h : validateMapKey env r (.literal l) w c = .err e) : ∀ p ∈ w.map, p.1 ≠ l.toValue := by
  simp only [validateMapKey, mapSearchLiteral] at h
  split at h
  · cases h
  · rename_i hg
    rintro ⟨x, v⟩ hp rfl
    exact (VMap.get_none hw.1).mp hg v hp

theorem cuts_taken (n : Node) : taken n.cuts = [] := by
  unfold Node.cuts
  split <;> rfl

theorem cuts_kept (n : Node) : CutsKept n.cuts := by
  unfold Node.cuts
  split <;> simp [CutsKept, taken]

theorem occurLoop_absent {f : WMap → SRes WMap} {lo up : Nat} {msg : String} {k : Nat} {l : Literal}
    (good : ∀ w : WMap, w.Inv k → (f w).Safe (fun _ => True) (WMap.Inv k)) (ha : ∀ w : WMap, w.Inv k → (f w).Absent l) :
    ∀ (j cnt : Nat) (w : WMap), w.Inv k → (occurLoopS f lo up msg j cnt w).Gives fun w' => ∀ p ∈ w'.map, p.1 ≠ l.toValue
  | 0, _, _, _ => trivial
  | j + 1, cnt, w, hw => by
    have h1 := good w hw
    have h2 := ha w hw
    simp only [occurLoopS]
    revert h1 h2
    cases f w with
    | ok w' =>
      intro h1 h2
      dsimp only
      split
      · split
        · trivial
        · exact h2
      · exact occurLoop_absent good ha j (cnt + 1) w' h1
    | err e w' =>
      intro h1 h2
      dsimp only
      split
      · split
        · trivial
        · exact h2 ‹_›
      · trivial
    | panic => exact fun _ _ => trivial
    | fuel => exact fun _ _ => trivial

theorem count_of_limits {o : OccurLimit} {k : Nat} (h1 : o.limits.1 ≤ k) (h2 : k ≤ o.limits.2) : Count o k := by
  cases o with
  | optional => exact .optional h2
  | zeroOrMore => exact .zeroOrMore h2
  | oneOrMore => exact .oneOrMore h1 h2
  | numbered n m => exact .numbered h1 h2

theorem choiceLoop_ok {f : Node → Res Unit} {msg : String} : ∀ {l : List Node}, choiceLoop f msg l = .ok () →
    ∃ n ∈ l, f n = .ok ()
  | [], h => by cases h
  | n :: ns, h => by
    simp only [choiceLoop] at h
    cases hf : f n with
    | ok => exact ⟨n, by simp, hf⟩
    | err e =>
      rw [hf] at h
      dsimp only at h
      split at h
      · cases h
      · obtain ⟨m, hm, h⟩ := choiceLoop_ok h
        exact ⟨m, List.mem_cons_of_mem _ hm, h⟩
    | panic => rw [hf] at h; cases h
    | fuel => rw [hf] at h; cases h

theorem searchLoop_found {f : Value → Res Unit} {msg : String} {k v : Value} : ∀ {m : VMap},
    mapSearchLoop f msg m = .ok (k, v) → (k, v) ∈ m ∧ f k = .ok ()
  | [], h => by cases h
  | (k1, v1) :: t, h => by
    simp only [mapSearchLoop] at h
    cases hf : f k1 with
    | ok => rw [hf] at h; cases h; exact ⟨by simp, hf⟩
    | err e =>
      rw [hf] at h
      obtain ⟨h1, h2⟩ := searchLoop_found h
      exact ⟨List.mem_cons_of_mem _ h1, h2⟩
    | panic => rw [hf] at h; cases h
    | fuel => rw [hf] at h; cases h

theorem kinds_all {J : Judgement} {p : Place} {l : List Node} {q : Kind → Bool} (h : (Node.kinds J p l).all q = true) :
    ∀ n ∈ l, q (n.kind J p) = true := by
  rw [kinds_mem] at h
  simpa using h

theorem kinds_dropLast {J : Judgement} {p : Place} {l : List Node} {q : Kind → Bool}
    (h : (Node.kinds J p l).dropLast.all q = true) : ∀ n ∈ l.dropLast, q (n.kind J p) = true := by
  rw [kinds_mem, ← List.map_dropLast] at h
  intro n hn
  exact List.all_eq_true.mp h _ (List.mem_map_of_mem hn)

section Step
variable {env : Env} {J : Judgement} {r : Rec} (hl : ∀ s e, env.lookup s = .error e → e.isFatal = true)
  (hJ : J.Agrees env) (G : GoodRec env PlainErr r) (S : SoundRec env J r)
include hl hJ G S

theorem deref_sound {n : Node} {c : Ctx} {l : Literal} (h : derefBody env r n c = .ok l) : Reaches env c.scope n (.literal l) := by
  cases n <;> simp only [derefBody, reduceCtorEq] at h
  case literal l' => cases h; exact .here (by simp)
  case rule s as =>
    obtain ⟨⟨n, c'⟩, h1, h⟩ := bind_ok h
    exact .rule (look_resolves (ofExcept_ok h1)) (S.deref _ _ _ h)

theorem chase_sound {n : Node} {c : Ctx} {n' : Node} (h : chaseBody env r n c = .ok n') : Reaches env c.scope n n' := by
  cases n <;> simp only [chaseBody] at h
  case rule s as =>
    obtain ⟨⟨n, c'⟩, h1, h⟩ := bind_ok h
    exact .rule (look_resolves (ofExcept_ok h1)) (S.chase _ _ _ h)
  all_goals
    cases h
    exact .here (by simp)

theorem alt_sound {m : Node} {v : Value} {c : Ctx} (hc : ScopeOk J c) (hm : m.altOk J = true) (hv : v.WF)
    (h : choiceifyItem r v c m = .ok ()) : Alt env c.scope m v := by
  cases m <;> simp only [choiceifyItem] at h
  case keyValue k t cut =>
    simp only [Node.altOk] at hm
    exact .keyValue _ _ (S.val _ _ _ hc hm hv h)
  case rule s as =>
    simp only [Node.altOk, Bool.and_eq_true] at hm
    exact .rule (S.chf _ _ _ _ hc hm.1 hm.2 hv h)
  all_goals
    refine .other (by simp) (by simp) (S.val _ _ _ hc ?_ hv h)
    simp only [Node.typeOk, Node.altOk] at hm ⊢ <;> exact hm

theorem members_sound {l : List Node} {v : Value} {c : Ctx} (hc : ScopeOk J c) (hm : Node.altsOk J l = true) (hv : v.WF)
    (h : validateChoiceifyMembers r l v c = .ok ()) : ∃ m ∈ l, Alt env c.scope m v := by
  obtain ⟨m, hml, h⟩ := choiceLoop_ok h
  exact ⟨m, hml, alt_sound hl hJ G S hc (altsOk_mem hm m hml) hv h⟩

theorem chf_sound {s : String} {as : List Node} {v : Value} {c : Ctx} (hc : ScopeOk J c) (hs : J.alt s = true)
    (ha : Node.argsOk J as = true) (hv : v.WF) (h : chfBody env r s as v c = .ok ()) : OneOf env c.scope s as v := by
  obtain ⟨⟨n, c'⟩, h1, h⟩ := bind_ok h
  obtain ⟨h2, hc', h3⟩ := look_sound hJ hc ha (ofExcept_ok h1)
  rcases h3 with ⟨_, h3⟩ | ⟨d, hd, rfl, h3⟩
  · rw [h3.1] at hs; cases hs
  have h4 := h3.alt hs
  dsimp only at h
  split at h
  · rename_i ms hn
    rw [hn] at h4 h2
    obtain ⟨m, hm, h⟩ := members_sound hl hJ G S hc' h4 hv h
    exact .group h2 hm h
  · rename_i s' as' hn
    rw [hn] at h4 h2
    simp only [Bool.and_eq_true] at h4
    exact .rule h2 (S.chf _ _ _ _ hc' h4.1 h4.2 hv h)
  · cases h

theorem popFront_gives {w : WArr} {v : Value} {vs : List Value} (h : w.array = v :: vs) :
    w.popFront.Gives fun w' => ArrEats w [v] w' := by
  unfold WArr.popFront
  rw [h]
  dsimp only
  split <;> (unfold SRes.Gives ArrEats; simpa using h)

theorem popFront_held {w : WArr} : w.popFront.Ends (ArrHeld w) ∧ w.popFront.FailsAt w := by
  unfold WArr.popFront
  split
  · exact ⟨trivial, trivial⟩
  · rename_i x xs ha
    split
    · rename_i hs
      refine ⟨fun s ss h => ?_, trivial⟩
      rw [hs] at h; cases h
    · rename_i s1 ss1 hs
      refine ⟨fun s ss h => ?_, trivial⟩
      rw [hs] at h
      cases h
      exact ⟨_, rfl, by rw [ha]; simp⟩

theorem arrayValue_spec {n : Node} {w : WArr} {c : Ctx} {P : Value → Prop} {q : Bool}
    (hw : ∀ v ∈ w.array, v.WF) (h : q = true → ∀ v, v.WF → r.val v n c = .ok () → P v) :
    (q = true → (validateArrayValue env r n w c).Gives fun w' => ∃ v, ArrEats w [v] w' ∧ P v) ∧
    (validateArrayValue env r n w c).Ends (ArrHeld w) ∧ (validateArrayValue env r n w c).FailsAt w := by
  unfold validateArrayValue
  cases ha : w.array with
  | nil => exact ⟨fun _ => trivial, fun _ => ArrHeld.refl w, fun _ => rfl⟩
  | cons v vs =>
    dsimp only
    cases hv : r.val v n c with
    | ok u =>
      refine ⟨fun hq => ?_, popFront_held hl hJ G S⟩
      have h1 := popFront_gives hl hJ G S ha
      have h2 := h hq v (hw v (by rw [ha]; simp)) hv
      revert h1
      cases w.popFront with
      | ok w' => exact fun h1 => ⟨v, h1, h2⟩
      | _ => exact fun _ => trivial
    | err e => exact ⟨fun _ => trivial, fun _ => ArrHeld.refl w, fun _ => rfl⟩
    | panic => exact ⟨fun _ => trivial, trivial, trivial⟩
    | fuel => exact ⟨fun _ => trivial, trivial, trivial⟩

theorem arrGroup_spec {l : List Node} {w : WArr} {c : Ctx} {k : Nat} (hc : ScopeOk J c) (hw : w.Inv k) :
    ArrSpec env c (.group l) (.group (Node.kinds J .item l)) w (validateArrayGroup r l w c) := by
  have good : ∀ n ∈ l, ∀ w : WArr, w.Inv (k + 1) → (r.arr n w c).Safe PlainErr (WArr.Inv (k + 1)) :=
    fun n _ w hw => G.arr n w c _ hw
  constructor
  · intro h
    have h := kinds_all h
    have h1 := seqLoopS_gives ArrEats.nil ArrEats.trans (I := WArr.Inv (k + 1)) (l := l) (f := fun m w => r.arr m w c)
      (P := Item env c.scope) good (fun n hn w hw => (S.arr n w c _ hc hw).gives (h n hn)) w.snapshot hw.snapshot
    unfold validateArrayGroup
    revert h1
    cases seqLoopS (fun m w => r.arr m w c) l w.snapshot with
    | ok w' =>
      rintro ⟨xs, h1, h2⟩
      dsimp only [WArr.commit]
      split
      · trivial
      · exact ⟨xs, h1, .group h2.seq⟩
    | err e w' =>
      intro _
      dsimp only [WArr.rewind]
      cases w'.snaps <;> trivial
    | _ => exact fun _ => trivial
  · intro h; cases h
  · intro h
    simp only [Kind.group, Bool.and_eq_true] at h
    have h1 := kinds_dropLast h.1
    have h2 := seqLoopS_logged (H := ArrHeld) ArrHeld.refl ArrHeld.trans (I := WArr.Inv (k + 1)) (l := l)
      (f := fun m w => r.arr m w c) good (fun n hn w hw => (S.arr n w c _ hc hw).held (h1 n hn))
      (fun n hn => by
        have h3 := h.2
        rw [kinds_mem, List.getLast?_map, hn] at h3
        simp only [Option.map_some, Bool.or_eq_true] at h3
        rcases h3 with h3 | h3
        · exact .inl fun w hw => (S.arr n w c _ hc hw).held h3
        · exact .inr fun w hw => (S.arr n w c _ hc hw).fails h3) w.snapshot hw.snapshot
    unfold validateArrayGroup
    revert h2
    cases seqLoopS (fun m w => r.arr m w c) l w.snapshot with
    | ok w' =>
      intro _
      dsimp only [WArr.commit]
      split <;> trivial
    | err e w' =>
      intro h2
      dsimp only [WArr.rewind]
      cases hs : w'.snaps with
      | nil => trivial
      | cons s ss =>
        intro he
        obtain ⟨s', h3, h4⟩ := h2 e w' rfl he [] w.snaps rfl
        rw [hs] at h3
        cases h3
        cases w
        simp only [List.nil_append, WArr.snapshot] at h4
        simp [h4, WArr.snapshot]
    | _ => exact fun _ => trivial

theorem arr_sound {n : Node} {w : WArr} {c : Ctx} {k : Nat} (hc : ScopeOk J c) (hw : w.Inv k) :
    ArrSpec env c n (n.kind J .item) w (arrBody env r n w c) := by
  -- entries that are single values
  have single : ∀ (n : Node) (q : Bool), n.isItem = true → (q = true → n.typeOk J = true) →
      ArrSpec env c n (.single q) w (validateArrayValue env r n w c) := by
    intro n q hn hq
    obtain ⟨h1, h2, h3⟩ := arrayValue_spec hl hJ G S (n := n) (w := w) (c := c) (P := fun v => Sat env c.scope n v) (q := q) hw.1
      (fun h v hv h' => S.val _ _ _ hc (hq h) hv h')
    refine ⟨fun h => ?_, fun _ => h2, fun _ => h3⟩
    have h1 := h1 h
    revert h1
    cases validateArrayValue env r n w c with
    | ok w' => rintro ⟨v, h4, h5⟩; exact ⟨[v], h4, .value hn h5⟩
    | _ => exact fun _ => trivial
  cases n
  case literal => simp only [arrBody]; exact single _ _ rfl fun _ => rfl
  case «prelude» => simp only [arrBody]; exact single _ _ rfl fun _ => rfl
  case ctlRegexp => simp only [arrBody]; exact single _ _ rfl fun _ => rfl
  case range => simp only [arrBody]; exact single _ _ rfl fun _ => rfl
  case ctl => simp only [arrBody]; exact single _ _ rfl fun _ => rfl
  case map l => simp only [arrBody]; exact single _ _ rfl fun h => by simpa [Node.typeOk] using h
  case array l => simp only [arrBody]; exact single _ _ rfl fun h => by simpa [Node.typeOk] using h
  case ctlCbor l => simp only [arrBody]; exact single _ _ rfl fun h => by simpa [Node.typeOk] using h
  case choiceify s as =>
    simp only [arrBody, Node.kind, if_true]
    exact single _ _ rfl fun h => by simpa only [Node.typeOk] using h
  case choiceifyInline l =>
    simp only [arrBody, Node.kind, if_true]
    exact single _ _ rfl fun h => by simpa only [Node.typeOk] using h
  case keyValue kn t cut =>
    simp only [arrBody, Node.kind]
    obtain ⟨h1, h2, h3⟩ := arrayValue_spec hl hJ G S (n := t) (w := w) (c := c) (P := fun v => Sat env c.scope t v)
      (q := t.typeOk J) hw.1 (fun h v hv h' => S.val _ _ _ hc h hv h')
    refine ⟨fun h => ?_, fun _ => h2, fun _ => h3⟩
    have h1 := h1 (by simp only [Bool.and_eq_true] at h; exact h.1)
    revert h1
    cases validateArrayValue env r t w c with
    | ok w' => rintro ⟨v, h4, h5⟩; exact ⟨[v], h4, .keyValue _ _ h5⟩
    | _ => exact fun _ => trivial
  case rule s as =>
    simp only [arrBody, Node.kind]
    cases hk : c.lookupRule env s as with
    | error e => exact ⟨fun _ => trivial, fun _ _ => ArrHeld.refl w, fun _ _ => rfl⟩
    | ok a =>
      obtain ⟨n, c'⟩ := a
      dsimp only
      split
      · rename_i ha
        obtain ⟨h2, hc', h3⟩ := look_sound hJ hc ha hk
        have h4 := S.arr n w c' k hc' hw
        have hle : (J.entry .item s).le (n.kind J .item) := by
          rcases h3 with ⟨h3, _⟩ | ⟨d, hd, rfl, h3⟩
          · rw [h3.2.1]; exact ⟨fun _ => rfl, fun _ => rfl, fun _ => rfl, fun _ => rfl⟩
          · exact h3.entry _
        refine ⟨fun h => ?_, fun h => h4.held (hle.2.1 h), fun h => h4.fails (hle.2.2.1 h)⟩
        have h5 := h4.gives (hle.1 h)
        revert h5
        cases r.arr n w c' with
        | ok w' => rintro ⟨xs, h5, h6⟩; exact ⟨xs, h5, .rule h2 h6⟩
        | _ => exact fun _ => trivial
      · exact ⟨(fun h => by cases h), (fun h => by cases h), (fun h => by cases h)⟩
  case unwrap s as =>
    simp only [arrBody, Node.kind]
    cases hk : c.lookupRule env s as with
    | error e => exact ⟨fun _ => trivial, fun _ _ => ArrHeld.refl w, fun _ _ => rfl⟩
    | ok a =>
      obtain ⟨n, c'⟩ := a
      dsimp only
      split
      · rename_i ha
        obtain ⟨h2, hc', h3⟩ := look_sound hJ hc ha hk
        unfold validateArrayUnwrap
        split
        · rename_i l
          have hle : (J.unwrap .item s).le (.seq (Node.kinds J .item l)) := by
            rcases h3 with ⟨_, h3⟩ | ⟨d, hd, hn, h3⟩
            · rw [h3.2.1]
              exact ⟨(fun h => by cases h), (fun h => by cases h), (fun h => by cases h), (fun h => by cases h)⟩
            · exact h3.unwrapArray _ hn
          have good : ∀ n ∈ l, ∀ w : WArr, w.Inv k → (r.arr n w c').Safe PlainErr (WArr.Inv k) :=
            fun n _ w hw => G.arr n w c' _ hw
          refine ⟨fun h => ?_, fun h => ?_, (fun h => by cases h)⟩
          · have h4 := kinds_all (hle.1 h)
            have h1 := seqLoopS_gives ArrEats.nil ArrEats.trans (I := WArr.Inv k) (l := l) (f := fun m w => r.arr m w c')
              (P := Item env c'.scope) good (fun n hn w hw => (S.arr n w c' _ hc' hw).gives (h4 n hn)) w hw
            revert h1
            cases seqLoopS (fun m w => r.arr m w c') l w with
            | ok w' => rintro ⟨xs, h5, h6⟩; exact ⟨xs, h5, .unwrap h2 h6.seq⟩
            | _ => exact fun _ => trivial
          · have h4 := kinds_all (hle.2.1 h)
            exact seqLoopS_ends ArrHeld.refl ArrHeld.trans (I := WArr.Inv k) (E := PlainErr) good
              (fun n hn w hw => (S.arr n w c' _ hc' hw).held (h4 n hn)) w hw
        · exact ⟨fun _ => trivial, fun _ _ => ArrHeld.refl w, fun _ _ => rfl⟩
      · exact ⟨(fun h => by cases h), (fun h => by cases h), (fun h => by cases h)⟩
  case choice l =>
    simp only [arrBody, Node.kind]
    refine ⟨fun h => ?_, fun h => ?_, fun h => ?_⟩
    · simp only [Kind.choice, Bool.and_eq_true] at h
      have h1 := kinds_all h.1
      have h2 := kinds_dropLast h.2
      have h3 := choiceLoopS_gives (f := fun m w => r.arr m w c) (stop := Err.isFatal) (msg := "choice of " ++ toString l.length)
        (Q := fun n w' => ∃ xs, ArrEats w xs w' ∧ Item env c.scope n xs) (fun e h => h) (l := l) w
        (fun n hn => (S.arr n w c _ hc hw).gives (h1 n hn)) (fun n hn => (S.arr n w c _ hc hw).fails (h2 n hn))
      revert h3
      cases choiceLoopS (fun m w => r.arr m w c) Err.isFatal ("choice of " ++ toString l.length) l w with
      | ok w' => rintro ⟨n, hn, xs, h4, h5⟩; exact ⟨xs, h4, .choice hn h5⟩
      | _ => exact fun _ => trivial
    · have h1 := kinds_all h
      exact choiceLoopS_ends ArrHeld.refl ArrHeld.trans (I := WArr.Inv k) (E := PlainErr) (fun e h => h)
        (fun n _ w hw => G.arr n w _ _ hw) (fun n hn w hw => (S.arr n w c _ hc hw).held (h1 n hn)) w hw
    · have h1 := kinds_all h
      exact choiceLoopS_failsAt (fun e h => h) w fun n hn => (S.arr n w c _ hc hw).fails (h1 n hn)
  case group l =>
    simp only [arrBody, Node.kind]
    exact arrGroup_spec hl hJ G S hc hw
  case occur o n =>
    simp only [arrBody, Node.kind, validateArrayOccur]
    have good : ∀ w : WArr, w.Inv k → (r.arr n w c).Safe PlainErr (WArr.Inv k) := fun w hw => G.arr n w c _ hw
    refine ⟨fun h => ?_, fun h => ?_, fun h => ?_⟩
    · simp only [Kind.occur, Bool.and_eq_true, decide_eq_true_eq] at h
      have h1 := occurLoopS_gives ArrEats.nil ArrEats.trans (I := WArr.Inv k) (E := PlainErr) (f := fun w => r.arr n w c)
        (P := Item env c.scope n) (lo := o.limits.1) (up := o.limits.2)
        (msg := "more array element [" ++ occurDisplay env.fmtF64 o n ++ "]") good
        (fun w hw => (S.arr n w c _ hc hw).gives h.1.1) (fun w hw => (S.arr n w c _ hc hw).fails h.1.2)
        (o.limits.2 + 1) 0 w hw (by omega)
      revert h1
      cases occurLoopS (fun w => r.arr n w c) o.limits.1 o.limits.2
        ("more array element [" ++ occurDisplay env.fmtF64 o n ++ "]") (o.limits.2 + 1) 0 w with
      | ok w' =>
        rintro ⟨j, xs, h1, h2, h3, h4⟩
        exact ⟨xs, h1, .occur (count_of_limits (by omega) (by omega)) h2.rep⟩
      | _ => exact fun _ => trivial
    · exact occurLoopS_ends ArrHeld.refl ArrHeld.trans (I := WArr.Inv k) (E := PlainErr) good
        (fun w hw => (S.arr n w c _ hc hw).held h) _ _ w hw
    · simp only [Kind.occur, Bool.and_eq_true, decide_eq_true_eq] at h
      refine occurLoopS_failsAt (I := WArr.Inv k) (E := PlainErr) h.1.2 (fun w hw => (S.arr n w c _ hc hw).fails h.1.1)
        (.inr fun w hw => ?_) good _ w hw
      have h1 := good w hw
      revert h1
      cases r.arr n w c with
      | err e w' => exact fun h1 => h1.1
      | _ => exact fun _ => trivial

theorem remove_spec {w : WMap} {k : Nat} (hw : w.Inv k) {x v : Value} (hx : (x, v) ∈ w.map) :
    (w.remove x).Gives (fun w' => MapEats w [.pair x v] w' ∧ ∀ p ∈ w'.map, p.1 ≠ x) ∧ (w.remove x).Ends (MapHeld w) ∧ (w.remove x).FailsAt w ∧
      (w.remove x).Uncut := by
  have hp : w.map.Perm ((x, v) :: w.map.without x) := by
    have h1 := VMap.insert_without hw.1 hx
    have h2 := VMap.insert_perm (k := x) (v := v) (hw.1.without x) fun v' h => by
      rw [VMap.mem_without] at h
      exact h.2 rfl
    rw [h1] at h2
    exact h2
  have gone : ∀ p ∈ w.map.without x, p.1 ≠ x := fun p hp => (VMap.mem_without.mp hp).2
  unfold WMap.remove
  rw [VMap.remove_some hw.1 hx]
  dsimp only
  split
  · rename_i hs
    refine ⟨⟨⟨hp, trivial, nofun⟩, gone⟩, fun s ss h => ?_, trivial, trivial⟩
    rw [hs] at h; cases h
  · rename_i s1 ss1 hs
    refine ⟨⟨⟨hp, trivial, nofun⟩, gone⟩, fun s ss h => ?_, trivial, trivial⟩
    rw [hs] at h
    cases h
    refine ⟨_, rfl, ?_⟩
    rw [List.append_assoc]
    exact (hp.symm).append_left _

theorem keyvalue_spec {kn t : Node} {cut : Bool} {w : WMap} {c : Ctx} {k : Nat} (hc : ScopeOk J c) (hw : w.Inv k) :
    MapSpec env c (.keyValue kn t cut) ⟨t.typeOk J && kn.typeOk J, true, true, !cut⟩ w
      (validateMapKeyvalue env r kn t cut w c) := by
  have hkey : ∀ x v, validateMapKey env r kn w c = .ok (x, v) → (x, v) ∈ w.map ∧
      (kn.typeOk J = true → Sat env c.scope kn x) := by
    intro x v h
    unfold validateMapKey at h
    split at h
    · rename_i l
      unfold mapSearchLiteral at h
      split at h
      · rename_i v' hg
        cases h
        exact ⟨(VMap.get_some hw.1).mp hg, fun _ => .literal _ _⟩
      · cases h
    · obtain ⟨h1, h2⟩ := searchLoop_found h
      exact ⟨h1, fun hk => S.val _ _ _ hc hk (hw.2.1 _ h1).1 h2⟩
  have hkerr : ∀ e, validateMapKey env r kn w c = .err e → e.isMismatch = true := by
    intro e h
    unfold validateMapKey at h
    split at h
    · unfold mapSearchLiteral at h
      split at h <;> cases h
      rfl
    · unfold mapSearch at h
      revert h
      generalize w.map = m
      induction m with
      | nil => intro h; cases h; rfl
      | cons p m ih =>
        obtain ⟨k1, v1⟩ := p
        intro h
        simp only [mapSearchLoop] at h
        split at h
        · cases h
        · exact ih h
        · cases h
        · cases h
  unfold validateMapKeyvalue
  cases hk : validateMapKey env r kn w c with
  | ok p =>
    obtain ⟨x, v⟩ := p
    obtain ⟨h1, h2⟩ := hkey x v hk
    dsimp only
    cases hv : r.val v t c with
    | ok u =>
      obtain ⟨h3, h4, h5, h6⟩ := remove_spec hl hJ G S hw h1
      refine ⟨fun h => ?_, fun _ => h4, fun _ => h5, fun _ => h6, fun l hl => ?_⟩
      rotate_left
      · obtain ⟨rfl, rfl⟩ := cuts_literal hl
        obtain rfl := literal_key hk
        unfold WMap.remove at h3 ⊢
        rw [VMap.remove_some hw.1 h1] at h3 ⊢
        revert h3
        dsimp only
        split <;> exact fun h3 => h3.2
      simp only [Bool.and_eq_true] at h
      revert h3
      dsimp only
      cases w.remove x with
      | ok w' => exact fun h3 => ⟨_, h3.1, .keyValue _ (h2 h.2) (S.val _ _ _ hc h.1 (hw.2.1 _ h1).2 hv)⟩
      | _ => exact fun _ => trivial
    | err e =>
      have hp : PlainErr e := by
        have := G.val v t c (hw.2.1 _ h1).2
        rw [hv] at this
        exact this
      dsimp only
      split
      · exact ⟨fun _ => trivial, fun _ _ => MapHeld.refl w, fun _ _ => rfl, (fun h => by cases h), fun _ _ h => by cases h⟩
      · rename_i hne
        refine ⟨fun _ => trivial, fun _ _ => MapHeld.refl w, fun _ _ => rfl, fun h => hp, fun l hl he => ?_⟩
        obtain ⟨_, rfl⟩ := cuts_literal hl
        cases e <;> first | (cases he; done) | exact absurd rfl (hne _ rfl) | exact (hne _ rfl rfl).elim
    | panic => exact ⟨fun _ => trivial, fun _ => trivial, fun _ => trivial, fun _ => trivial, fun _ _ => trivial⟩
    | fuel => exact ⟨fun _ => trivial, fun _ => trivial, fun _ => trivial, fun _ => trivial, fun _ _ => trivial⟩
  | err e =>
    refine ⟨fun _ => trivial, fun _ _ => MapHeld.refl w, fun _ _ => rfl, fun _ _ => hkerr e hk, fun l hl _ => ?_⟩
    obtain ⟨rfl, _⟩ := cuts_literal hl
    exact literal_none hw hk
  | panic => exact ⟨fun _ => trivial, fun _ => trivial, fun _ => trivial, fun _ => trivial, fun _ _ => trivial⟩
  | fuel => exact ⟨fun _ => trivial, fun _ => trivial, fun _ => trivial, fun _ => trivial, fun _ _ => trivial⟩

theorem mapGroup_spec {l : List Node} {w : WMap} {c : Ctx} {k : Nat} (hc : ScopeOk J c) (hw : w.Inv k) :
    MapSpec env c (.group l) (.group (Node.kinds J .member l)) w (validateMapGroup r l w c) := by
  have good : ∀ n ∈ l, ∀ w : WMap, w.Inv (k + 1) → (r.map n w c).Safe (fun _ => True) (WMap.Inv (k + 1)) :=
    fun n _ w hw => G.map n w c _ hw
  constructor
  · intro h
    have h := kinds_all h
    have h1 := seqLoopS_gives MapEats.nil MapEats.trans (I := WMap.Inv (k + 1)) (l := l) (f := fun m w => r.map m w c)
      (P := MItem env c.scope) good (fun n hn w hw => (S.map n w c _ hc hw).gives (h n hn)) w.snapshot hw.snapshot
    unfold validateMapGroup
    revert h1
    cases seqLoopS (fun m w => r.map m w c) l w.snapshot with
    | ok w' =>
      rintro ⟨xs, h1, h2⟩
      dsimp only [WMap.commit]
      split
      · trivial
      · exact ⟨xs, h1, .group h2.mseq⟩
    | err e w' =>
      intro _
      dsimp only [WMap.rewind]
      cases w'.snaps <;> trivial
    | _ => exact fun _ => trivial
  · intro h; cases h
  · intro h
    simp only [Kind.group, Bool.and_eq_true] at h
    have h1 := kinds_dropLast h.1
    have h2 := seqLoopS_logged (H := MapHeld) MapHeld.refl MapHeld.trans (I := WMap.Inv (k + 1)) (l := l)
      (f := fun m w => r.map m w c) good (fun n hn w hw => (S.map n w c _ hc hw).held (h1 n hn))
      (fun n hn => by
        have h3 := h.2
        rw [kinds_mem, List.getLast?_map, hn] at h3
        simp only [Option.map_some, Bool.or_eq_true] at h3
        rcases h3 with h3 | h3
        · exact .inl fun w hw => (S.map n w c _ hc hw).held h3
        · exact .inr fun w hw => (S.map n w c _ hc hw).fails h3) w.snapshot hw.snapshot
    have h5 := seqLoopS_safe (E := fun _ => True) (f := fun m w => r.map m w c) l w.snapshot hw.snapshot good
    unfold validateMapGroup
    revert h2 h5
    cases seqLoopS (fun m w => r.map m w c) l w.snapshot with
    | ok w' =>
      intro _ _
      dsimp only [WMap.commit]
      split <;> trivial
    | err e w' =>
      intro h2 h5
      dsimp only [WMap.rewind]
      cases hs : w'.snaps with
      | nil => trivial
      | cons s ss =>
        intro he
        obtain ⟨s', h3, h4⟩ := h2 e w' rfl (by cases e <;> first | rfl | cases he) [] w.snaps rfl
        rw [hs] at h3
        cases h3
        have h6 := VMap.extend_perm (M := w.map) hw.1 s h5.2.1 h4
        rw [h6]
    | _ => exact fun _ _ => trivial
  · intro _
    unfold validateMapGroup
    cases seqLoopS (fun m w => r.map m w c) l w.snapshot with
    | ok w' => dsimp only [WMap.commit]; split <;> trivial
    | err e w' =>
      dsimp only [WMap.rewind]
      cases w'.snaps with
      | nil => trivial
      | cons s ss => cases e <;> intro he <;> first | rfl | cases he
    | _ => trivial
  · exact nofun

theorem map_sound {n : Node} {w : WMap} {c : Ctx} {k : Nat} (hc : ScopeOk J c) (hw : w.Inv k) :
    MapSpec env c n (n.kind J .member) w (mapBody env r n w c) := by
  have dead : ∀ (n : Node) (k : Kind) (e : Err), PlainErr e → n.cuts = [] → MapSpec env c n k w (.err e w) := fun n k e he hn =>
    ⟨fun _ => trivial, fun _ _ => MapHeld.refl w, fun _ _ => rfl, fun _ => he, fun l hl => by rw [hn] at hl; cases hl⟩
  have nothing : ∀ (n : Node) (x : SRes WMap), n.cuts = [] → MapSpec env c n .none w x := fun n x hn =>
    ⟨(fun h => by cases h), (fun h => by cases h), (fun h => by cases h), (fun h => by cases h), fun l hl => by rw [hn] at hl; cases hl⟩
  cases n
  case literal => exact dead _ _ _ (fun h => by cases h) rfl
  case «prelude» => exact dead _ _ _ (fun h => by cases h) rfl
  case ctlRegexp => exact dead _ _ _ (fun h => by cases h) rfl
  case range => exact dead _ _ _ (fun h => by cases h) rfl
  case ctl => exact dead _ _ _ (fun h => by cases h) rfl
  case map l => exact dead _ _ _ (fun h => by cases h) rfl
  case array l => exact dead _ _ _ (fun h => by cases h) rfl
  case ctlCbor l => exact dead _ _ _ (fun h => by cases h) rfl
  case choiceify s as => exact nothing _ _ rfl
  case choiceifyInline l => exact nothing _ _ rfl
  case keyValue kn t cut =>
    simp only [mapBody, Node.kind]
    exact keyvalue_spec hl hJ G S hc hw
  case rule s as =>
    simp only [mapBody, Node.kind]
    cases hk : c.lookupRule env s as with
    | error e =>
      exact dead _ _ e (lookupRule_err (plainErr_ok hl) hk) rfl
    | ok a =>
      obtain ⟨n, c'⟩ := a
      dsimp only
      split
      · rename_i ha
        obtain ⟨h2, hc', h3⟩ := look_sound hJ hc ha hk
        have h4 := S.map n w c' k hc' hw
        have hle : (J.entry .member s).le (n.kind J .member) := by
          rcases h3 with ⟨h3, _⟩ | ⟨d, hd, rfl, h3⟩
          · rw [h3.2.2]; exact ⟨fun _ => rfl, fun _ => rfl, fun _ => rfl, fun _ => rfl⟩
          · exact h3.entry _
        refine ⟨fun h => ?_, fun h => h4.held (hle.2.1 h), fun h => h4.fails (hle.2.2.1 h), fun h => h4.uncut (hle.2.2.2 h), nofun⟩
        have h5 := h4.gives (hle.1 h)
        revert h5
        cases r.map n w c' with
        | ok w' => rintro ⟨xs, h5, h6⟩; exact ⟨xs, h5, .rule h2 h6⟩
        | _ => exact fun _ => trivial
      · exact nothing _ _ rfl
  case unwrap s as =>
    simp only [mapBody, Node.kind]
    cases hk : c.lookupRule env s as with
    | error e =>
      exact dead _ _ e (lookupRule_err (plainErr_ok hl) hk) rfl
    | ok a =>
      obtain ⟨n, c'⟩ := a
      dsimp only
      split
      · rename_i ha
        obtain ⟨h2, hc', h3⟩ := look_sound hJ hc ha hk
        unfold validateMapUnwrap
        split
        · rename_i l
          have hle : (J.unwrap .member s).le (.seq (Node.kinds J .member l)) := by
            rcases h3 with ⟨_, h3⟩ | ⟨d, hd, hn, h3⟩
            · rw [h3.2.2]
              exact ⟨(fun h => by cases h), (fun h => by cases h), (fun h => by cases h), (fun h => by cases h)⟩
            · exact h3.unwrapMap _ hn
          have good : ∀ n ∈ l, ∀ w : WMap, w.Inv k → (r.map n w c').Safe (fun _ => True) (WMap.Inv k) :=
            fun n _ w hw => G.map n w c' _ hw
          refine ⟨fun h => ?_, fun h => ?_, (fun h => by cases h), fun h => ?_, nofun⟩
          · have h4 := kinds_all (hle.1 h)
            have h1 := seqLoopS_gives MapEats.nil MapEats.trans (I := WMap.Inv k) (l := l) (f := fun m w => r.map m w c')
              (P := MItem env c'.scope) good (fun n hn w hw => (S.map n w c' _ hc' hw).gives (h4 n hn)) w hw
            revert h1
            cases seqLoopS (fun m w => r.map m w c') l w with
            | ok w' => rintro ⟨xs, h5, h6⟩; exact ⟨xs, h5, .unwrap h2 h6.mseq⟩
            | _ => exact fun _ => trivial
          · have h4 := kinds_all (hle.2.1 h)
            exact seqLoopS_ends MapHeld.refl MapHeld.trans (I := WMap.Inv k) (E := fun _ => True) good
              (fun n hn w hw => (S.map n w c' _ hc' hw).held (h4 n hn)) w hw
          · have h4 := kinds_all (hle.2.2.2 h)
            exact seqLoopS_uncut (I := WMap.Inv k) (E := fun _ => True) good
              (fun n hn w hw => (S.map n w c' _ hc' hw).uncut (h4 n hn)) w hw
        · exact ⟨fun _ => trivial, fun _ _ => MapHeld.refl w, fun _ _ => rfl, fun _ _ => rfl, nofun⟩
      · exact nothing _ _ rfl
  case choice l =>
    simp only [mapBody, Node.kind, validateMapChoice]
    have stop : ∀ e : Err, (!e.isMismatch) = false → e.isFatal = false := fun e h => isMismatch_nonfatal (by simpa using h)
    refine ⟨fun h => ?_, fun h => ?_, fun h => ?_, fun h => ?_, nofun⟩
    · simp only [Kind.choice, Bool.and_eq_true] at h
      have h1 := kinds_all h.1
      have h2 := kinds_dropLast h.2
      have h3 := choiceLoopS_gives (f := fun m w => r.map m w c) (stop := fun e => !e.isMismatch)
        (msg := "choice of " ++ toString l.length)
        (Q := fun n w' => ∃ xs, MapEats w xs w' ∧ MItem env c.scope n xs) stop (l := l) w
        (fun n hn => (S.map n w c _ hc hw).gives (h1 n hn)) (fun n hn => (S.map n w c _ hc hw).fails (h2 n hn))
      revert h3
      cases choiceLoopS (fun m w => r.map m w c) (fun e => !e.isMismatch) ("choice of " ++ toString l.length) l w with
      | ok w' => rintro ⟨n, hn, xs, h4, h5⟩; exact ⟨xs, h4, .choice hn h5⟩
      | _ => exact fun _ => trivial
    · have h1 := kinds_all h
      exact choiceLoopS_ends MapHeld.refl MapHeld.trans (I := WMap.Inv k) (E := fun _ => True) stop
        (fun n _ w hw => G.map n w _ _ hw) (fun n hn w hw => (S.map n w c _ hc hw).held (h1 n hn)) w hw
    · have h1 := kinds_all h
      exact choiceLoopS_failsAt stop w fun n hn => (S.map n w c _ hc hw).fails (h1 n hn)
    · have h1 := kinds_all h
      exact choiceLoopS_uncut (I := WMap.Inv k) (E := fun _ => True) (fun n _ w hw => G.map n w _ _ hw)
        (fun n hn w hw => (S.map n w c _ hc hw).uncut (h1 n hn)) w hw
  case group l =>
    simp only [mapBody, Node.kind]
    exact mapGroup_spec hl hJ G S hc hw
  case occur o n =>
    simp only [mapBody, Node.kind, validateMapOccur]
    have good : ∀ w : WMap, w.Inv k → (r.map n w c).Safe (fun _ => True) (WMap.Inv k) := fun w hw => G.map n w c _ hw
    refine ⟨fun h => ?_, fun h => ?_, fun h => ?_, fun h => ?_, nofun⟩
    · simp only [Kind.occur, Bool.and_eq_true, decide_eq_true_eq] at h
      have h1 := occurLoopS_gives MapEats.nil MapEats.trans (I := WMap.Inv k) (E := fun _ => True) (f := fun w => r.map n w c)
        (P := MItem env c.scope n) (lo := o.limits.1) (up := o.limits.2)
        (msg := "map{" ++ occurDisplay env.fmtF64 o n ++ "}]") good
        (fun w hw => (S.map n w c _ hc hw).gives h.1.1) (fun w hw => (S.map n w c _ hc hw).fails h.1.2)
        (o.limits.2 + 1) 0 w hw (by omega)
      have habs := fun l hl => occurLoop_absent (lo := o.limits.1) (up := o.limits.2)
        (msg := "map{" ++ occurDisplay env.fmtF64 o n ++ "}]") (f := fun w => r.map n w c) good
        (fun w hw => (S.map n w c _ hc hw).absent l hl) (o.limits.2 + 1) 0 w hw
      revert habs h1
      cases occurLoopS (fun w => r.map n w c) o.limits.1 o.limits.2
        ("map{" ++ occurDisplay env.fmtF64 o n ++ "}]") (o.limits.2 + 1) 0 w with
      | ok w' =>
        rintro ⟨j, xs, h1, h2, h3, h4⟩ habs
        refine ⟨xs ++ n.cuts, ⟨?_, cutsKept_append.mpr ⟨h1.2.1, ?_, ?_⟩, ?_⟩, .occur (count_of_limits (by omega) (by omega)) h2.mrep⟩
        · rw [taken_append, cuts_taken, List.append_nil]; exact h1.1
        · exact cuts_kept n
        · rw [cuts_taken]; exact fun _ _ _ h => by cases h
        · intro l hl
          rcases List.mem_append.mp hl with hl | hl
          · exact h1.2.2 l hl
          · exact habs l hl
      | _ => exact fun _ _ => trivial
    · exact occurLoopS_ends MapHeld.refl MapHeld.trans (I := WMap.Inv k) (E := fun _ => True) good
        (fun w hw => (S.map n w c _ hc hw).held h) _ _ w hw
    · simp only [Kind.occur, Bool.and_eq_true, Bool.or_eq_true, decide_eq_true_eq] at h
      refine occurLoopS_failsAt (I := WMap.Inv k) (E := fun _ => True) h.1.2 (fun w hw => (S.map n w c _ hc hw).fails h.1.1)
        ?_ good _ w hw
      rcases h.2 with h2 | h2
      · exact .inl h2
      · exact .inr fun w hw => (S.map n w c _ hc hw).uncut h2
    · exact occurLoopS_uncut (I := WMap.Inv k) (E := fun _ => True) good (fun w hw => (S.map n w c _ hc hw).uncut h) _ _ w hw

theorem val_sound {v : Value} {n : Node} {c : Ctx} (hc : ScopeOk J c) (hn : n.typeOk J = true) (hv : v.WF)
    (h : valBody env r v n c = .ok ()) : Sat env c.scope n v := by
  cases n <;> simp only [valBody, reduceCtorEq] at h
  case literal l =>
    unfold validateLiteral at h
    split at h
    · rename_i hb
      rw [Value.beq_iff] at hb
      subst hb
      exact .literal _ _
    · cases h
  case «prelude» p => exact .prelude _ (prelude_ok h)
  case choice l =>
    obtain ⟨n, hm, h⟩ := choiceLoop_ok h
    exact .choice hm (S.val _ _ _ hc (typesOk_mem hn n hm) hv h)
  case map l =>
    unfold validateMap at h
    cases v <;> simp only [reduceCtorEq] at h
    rename_i m
    have hv' : VMap.Sorted m ∧ Value.WFMap m := hv
    have hw : (WMap.new m).Inv 0 := ⟨(VMap.sorted_iff m).mp hv'.1, (Value.WFMap_iff m).mp hv'.2, by simp [WMap.new], rfl⟩
    have h4 := kinds_all hn
    have h1 := seqLoopS_gives MapEats.nil MapEats.trans (I := WMap.Inv 0) (E := fun _ => True) (l := l)
      (f := fun m w => r.map m w c) (P := MItem env c.scope) (fun n _ w hw => G.map n w c _ hw)
      (fun n hn w hw => (S.map n w c _ hc hw).gives (h4 n hn)) (WMap.new m) hw
    revert h h1
    cases seqLoopS (fun m w => r.map m w c) l (WMap.new m) with
    | ok w' =>
      dsimp only
      rintro h ⟨xs, h1, h2⟩
      split at h
      · rename_i he
        refine .map h2.mseq h1.2.1 ?_
        have he : w'.map = [] := by simpa using he
        have h1 := h1.1
        rw [he, List.append_nil] at h1
        exact h1.symm
      · cases h
    | _ => intro h; cases h
  case array l =>
    unfold validateArray at h
    cases v <;> simp only [reduceCtorEq] at h
    rename_i a
    have hw : (WArr.new a).Inv 0 := ⟨(Value.WFArr_iff a).mp hv, by simp [WArr.new], rfl⟩
    have h4 := kinds_all hn
    have h1 := seqLoopS_gives ArrEats.nil ArrEats.trans (I := WArr.Inv 0) (E := PlainErr) (l := l)
      (f := fun m w => r.arr m w c) (P := Item env c.scope) (fun n _ w hw => G.arr n w c _ hw)
      (fun n hn w hw => (S.arr n w c _ hc hw).gives (h4 n hn)) (WArr.new a) hw
    revert h h1
    cases seqLoopS (fun m w => r.arr m w c) l (WArr.new a) with
    | ok w' =>
      dsimp only
      rintro h ⟨xs, h1, h2⟩
      split at h
      · rename_i he
        have he : w'.array = [] := by simpa using he
        have h1 : a = xs ++ w'.array := h1
        rw [he, List.append_nil] at h1
        rw [h1]
        exact .array h2.seq
      · cases h
    | _ => intro h; cases h
  case rule s as =>
    simp only [Node.typeOk, Bool.and_eq_true] at hn
    obtain ⟨⟨n, c'⟩, h1, h⟩ := bind_ok h
    obtain ⟨h2, hc', h3⟩ := look_sound hJ hc hn.2 (ofExcept_ok h1)
    refine .rule h2 (S.val _ _ _ hc' ?_ hv h)
    rcases h3 with ⟨h3, _⟩ | ⟨d, hd, rfl, h3⟩
    · exact h3.1
    · exact h3.type hn.1
  case group l =>
    unfold validateStandaloneGroup at h
    split at h
    · simp only [Node.typeOk, Node.typesOk, Bool.and_true] at hn
      exact .group (S.val _ _ _ hc hn hv h)
    · cases h
  case range a b i =>
    obtain ⟨la, h1, h⟩ := bind_ok h
    obtain ⟨lb, h2, h⟩ := bind_ok h
    exact .range (S.deref _ _ _ h1) (S.deref _ _ _ h2) (range_ok h)
  case ctl op t a => exact control_ok S.chase h
  case ctlRegexp p =>
    unfold validateControlRegexp at h
    split at h
    · split at h
      · exact .regexp _ (by assumption)
      · cases h
    · cases h
  case ctlCbor n =>
    unfold validateControlCbor at h
    split at h
    · split at h
      · cases h
      · rename_i d hd
        obtain ⟨v, h1, h⟩ := bind_ok h
        have h1 := ofExcept_ok h1
        exact .cbor hd ((cbor_ok _ _).mp h1) (S.val _ _ _ hc hn (Cbor.toValue_WF _ _ h1) h)
    · cases h
  case choiceify s as =>
    simp only [Node.typeOk, Bool.and_eq_true] at hn
    exact .choiceify (S.chf _ _ _ _ hc hn.1 hn.2 hv h)
  case choiceifyInline l =>
    obtain ⟨m, hm, h⟩ := members_sound hl hJ G S hc hn hv h
    exact .choiceifyInline hm h

end Step

/-- Soundness for every step budget. -/
theorem fns_sound {env : Env} {J : Judgement} (hl : ∀ s e, env.lookup s = .error e → e.isFatal = true) (hJ : J.Agrees env) :
    ∀ k, SoundRec env J (fns env k)
  | 0 => {
      deref := fun _ _ _ h => by cases h
      chase := fun _ _ _ h => by cases h
      val := fun _ _ _ _ _ _ h => by cases h
      chf := fun _ _ _ _ _ _ _ _ h => by cases h
      arr := fun _ _ _ _ _ _ => ⟨fun _ => trivial, fun _ => trivial, fun _ => trivial⟩
      map := fun _ _ _ _ _ _ => ⟨fun _ => trivial, fun _ => trivial, fun _ => trivial, fun _ => trivial, fun _ _ => trivial⟩ }
  | k + 1 =>
    have G := fns_good (plainErr_ok hl) k
    have S := fns_sound hl hJ k
    { deref := fun _ _ _ h => deref_sound hl hJ G S h
      chase := fun _ _ _ h => chase_sound hl hJ G S h
      val := fun _ _ _ hc hn hv h => val_sound hl hJ G S hc hn hv h
      chf := fun _ _ _ _ hc hs ha hv h => chf_sound hl hJ G S hc hs ha hv h
      arr := fun _ _ _ _ hc hw => arr_sound hl hJ G S hc hw
      map := fun _ _ _ _ hc hw => map_sound hl hJ G S hc hw }

theorem lim_sound {env : Env} {J : Judgement} (hl : ∀ s e, env.lookup s = .error e → e.isFatal = true) (hJ : J.Agrees env) :
    SoundRec env J (lim env) where
  deref n c l h := by
    obtain ⟨N, hN⟩ := (lim_ev env).deref n c
    exact (fns_sound hl hJ N).deref n c l (by rw [← h]; exact hN N (Nat.le_refl _))
  chase n c l h := by
    obtain ⟨N, hN⟩ := (lim_ev env).chase n c
    exact (fns_sound hl hJ N).chase n c l (by rw [← h]; exact hN N (Nat.le_refl _))
  val v n c hc hn hv h := by
    obtain ⟨N, hN⟩ := (lim_ev env).val v n c
    exact (fns_sound hl hJ N).val v n c hc hn hv (by rw [← h]; exact hN N (Nat.le_refl _))
  chf s as v c hc hs ha hv h := by
    obtain ⟨N, hN⟩ := (lim_ev env).chf s as v c
    exact (fns_sound hl hJ N).chf s as v c hc hs ha hv (by rw [← h]; exact hN N (Nat.le_refl _))
  arr n w c k hc hw := by
    obtain ⟨N, hN⟩ := (lim_ev env).arr n w c
    have := (fns_sound hl hJ N).arr n w c k hc hw
    rw [show (fns env N).arr n w c = (lim env).arr n w c from hN N (Nat.le_refl _)] at this
    exact this
  map n w c k hc hw := by
    obtain ⟨N, hN⟩ := (lim_ev env).map n w c
    have := (fns_sound hl hJ N).map n w c k hc hw
    rw [show (fns env N).map n w c = (lim env).map n w c from hN N (Nat.le_refl _)] at this
    exact this

end Cddl
