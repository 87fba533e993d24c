import Verif.Spec.Asked
import Verif.Proofs.Akin

/-! # The libraries are asked only about the schema and the data -/

namespace Cddl

/-- A set of data that is not left on the way, on which the libraries agree. -/
structure AskSet (T : Probes) (env : Env) (rx : String → String → Bool) (dec : List UInt8 → Except String Cbor)
    (W : Value → Prop) : Prop where
  elem : ∀ xs, W (.array xs) → ∀ x ∈ xs, W x
  pair : ∀ m, W (.map m) → ∀ p ∈ m, W p.1 ∧ W p.2
  decoded : T.cbor → ∀ b c w, W (.bytes b) → env.cborDecode b = .ok c → c.toValue = .ok w → W w
  regex : ∀ p s, T.pattern p → W (.text s) → env.regexMatch p s = rx p s
  cbor : T.cbor → ∀ b, W (.bytes b) → env.cborDecode b = dec b

/-- All elements of the working array are in the set. -/
def InArr (W : Value → Prop) (a : WArr) : Prop := (∀ x ∈ a.array, W x) ∧ ∀ s ∈ a.snaps, ∀ x ∈ s, W x

/-- All pairs of the working map are in the set. -/
def InMap (W : Value → Prop) (a : WMap) : Prop :=
  (∀ p ∈ a.map, W p.1 ∧ W p.2) ∧ ∀ s ∈ a.snaps, ∀ p ∈ s, W p.1 ∧ W p.2

/-- The same working copy, with a property. -/
def Eqq {σ : Type} (P : σ → Prop) (a b : σ) : Prop := a = b ∧ P a

variable {W : Value → Prop}

theorem arewind_in {a : WArr} (h : InArr W a) : SRel (Eqq (InArr W)) a.rewind a.rewind := by
  obtain ⟨h1, h2⟩ := h
  unfold WArr.rewind
  cases hs : a.snaps with
  | nil => exact .panic
  | cons s ss =>
    rw [hs] at h2
    simp only [List.forall_mem_cons] at h2
    exact .ok ⟨rfl, List.forall_mem_append.mpr ⟨h2.1, h1⟩, h2.2⟩

theorem acommit_in {a : WArr} (h : InArr W a) : SRel (Eqq (InArr W)) a.commit a.commit := by
  obtain ⟨h1, h2⟩ := h
  unfold WArr.commit
  cases hs : a.snaps with
  | nil => exact .panic
  | cons s ss =>
    rw [hs] at h2
    simp only [List.forall_mem_cons] at h2
    exact .ok ⟨rfl, h1, h2.2⟩

theorem apop_in {a : WArr} (h : InArr W a) : SRel (Eqq (InArr W)) a.popFront a.popFront := by
  obtain ⟨h1, h2⟩ := h
  unfold WArr.popFront
  cases ha : a.array with
  | nil => exact .panic
  | cons x xs =>
    rw [ha] at h1
    simp only [List.forall_mem_cons] at h1
    cases hs : a.snaps with
    | nil => exact .ok ⟨rfl, h1.2, by simp⟩
    | cons s ss =>
      rw [hs] at h2
      simp only [List.forall_mem_cons] at h2
      refine .ok ⟨rfl, h1.2, ?_⟩
      simp only [List.forall_mem_cons]
      refine ⟨List.forall_mem_append.mpr ⟨h2.1, ?_⟩, h2.2⟩
      simpa using h1.1

theorem vget_mem {k v : Value} : ∀ {m : VMap}, VMap.get m k = some v → (k, v) ∈ m
  | [], h => by cases h
  | (k', v') :: t, h => by
    simp only [VMap.get] at h
    cases hc : Value.cmp k k' with
    | lt => rw [hc] at h; cases h
    | eq =>
      rw [hc] at h
      cases h
      rw [(Value.cmp_eq _ _).mp hc]
      simp
    | gt => rw [hc] at h; exact List.mem_cons_of_mem _ (vget_mem h)

theorem vremove_mem {k v : Value} : ∀ {m m' : VMap}, VMap.remove m k = some (v, m') → (k, v) ∈ m ∧ ∀ p ∈ m', p ∈ m
  | [], _, h => by cases h
  | (k', v') :: t, m', h => by
    simp only [VMap.remove] at h
    cases hc : Value.cmp k k' with
    | lt => rw [hc] at h; cases h
    | eq =>
      rw [hc] at h
      cases h
      rw [(Value.cmp_eq _ _).mp hc]
      exact ⟨by simp, fun p hp => by simp [hp]⟩
    | gt =>
      rw [hc] at h
      dsimp only at h
      cases hr : VMap.remove t k with
      | none => rw [hr] at h; cases h
      | some q =>
        obtain ⟨u, t'⟩ := q
        rw [hr] at h
        cases h
        obtain ⟨h1, h2⟩ := vremove_mem hr
        refine ⟨List.mem_cons_of_mem _ h1, ?_⟩
        intro p hp
        rcases List.mem_cons.mp hp with rfl | hp
        · simp
        · exact List.mem_cons_of_mem _ (h2 p hp)

theorem vinsert_mem {k v : Value} {p : Value × Value} : ∀ {m : VMap}, p ∈ VMap.insert m k v → p = (k, v) ∨ p ∈ m
  | [], h => by simpa [VMap.insert] using h
  | (k', v') :: t, h => by
    simp only [VMap.insert] at h
    cases hc : Value.cmp k k' with
    | lt => rw [hc] at h; simpa using h
    | eq =>
      rw [hc] at h
      simp only [List.mem_cons] at h ⊢
      rcases h with h | h
      · rw [(Value.cmp_eq _ _).mp hc]; exact .inl h
      · exact .inr (.inr h)
    | gt =>
      rw [hc] at h
      simp only [List.mem_cons] at h ⊢
      rcases h with h | h
      · exact .inr (.inl h)
      · rcases vinsert_mem h with h | h
        · exact .inl h
        · exact .inr (.inr h)

theorem vextend_mem {p : Value × Value} : ∀ {l m : VMap}, p ∈ VMap.extend m l → p ∈ l ∨ p ∈ m
  | [], _, h => .inr h
  | q :: l, m, h => by
    rcases vextend_mem (l := l) (m := VMap.insert m q.1 q.2) h with h | h
    · exact .inl (by simp [h])
    · rcases vinsert_mem h with h | h
      · exact .inl (by simp [h])
      · exact .inr h

theorem wrewind_in {a : WMap} (h : InMap W a) : SRel (Eqq (InMap W)) a.rewind a.rewind := by
  obtain ⟨h1, h2⟩ := h
  unfold WMap.rewind
  cases hs : a.snaps with
  | nil => exact .panic
  | cons s ss =>
    rw [hs] at h2
    simp only [List.forall_mem_cons] at h2
    refine .ok ⟨rfl, fun p hp => ?_, h2.2⟩
    rcases vextend_mem hp with h | h
    · exact h2.1 p h
    · exact h1 p h

theorem wcommit_in {a : WMap} (h : InMap W a) : SRel (Eqq (InMap W)) a.commit a.commit := by
  obtain ⟨h1, h2⟩ := h
  unfold WMap.commit
  cases hs : a.snaps with
  | nil => exact .panic
  | cons s ss =>
    rw [hs] at h2
    simp only [List.forall_mem_cons] at h2
    exact .ok ⟨rfl, h1, h2.2⟩

theorem wremove_in {a : WMap} (h : InMap W a) (k : Value) : SRel (Eqq (InMap W)) (a.remove k) (a.remove k) := by
  obtain ⟨h1, h2⟩ := h
  unfold WMap.remove
  cases hr : VMap.remove a.map k with
  | none => exact .panic
  | some q =>
    obtain ⟨v, m⟩ := q
    obtain ⟨h3, h4⟩ := vremove_mem hr
    dsimp only
    cases hs : a.snaps with
    | nil => exact .ok ⟨rfl, fun p hp => h1 p (h4 p hp), by simp⟩
    | cons s ss =>
      rw [hs] at h2
      simp only [List.forall_mem_cons] at h2
      refine .ok ⟨rfl, fun p hp => h1 p (h4 p hp), ?_⟩
      simp only [List.forall_mem_cons]
      refine ⟨List.forall_mem_append.mpr ⟨h2.1, ?_⟩, h2.2⟩
      simpa using h1 _ h3

/-! ## One step -/

variable {T : Probes} {env : Env} {rx : String → String → Bool} {dec : List UInt8 → Except String Cbor}

theorem lookup_using (c : Ctx) (s : String) (as : List Node) :
    c.lookupRule (env.using rx dec) s as = c.lookupRule env s as := by
  cases c <;> rfl

/-- The functions `s` and `s'` answer the same on the set. -/
structure AskBlind (T : Probes) (W : Value → Prop) (s s' : Rec) : Prop where
  val : ∀ {v n c}, W v → n.Made T → c.Made T → s.val v n c = s'.val v n c
  chf : ∀ {v name c} {args : List Node}, W v → (∀ n ∈ args, n.Made T) → c.Made T → s.chf name args v c = s'.chf name args v c
  arr : ∀ {a n c}, InArr W a → n.Made T → c.Made T → SRel (Eqq (InArr W)) (s.arr n a c) (s'.arr n a c)
  map : ∀ {a n c}, InMap W a → n.Made T → c.Made T → SRel (Eqq (InMap W)) (s.map n a c) (s'.map n a c)
  mchf : ∀ {a name c} {args : List Node}, InMap W a → (∀ n ∈ args, n.Made T) → c.Made T →
    SRel (Eqq (InMap W)) (s.mchf name args a c) (s'.mchf name args a c)
  deref : ∀ n c, s.deref n c = s'.deref n c
  chase : ∀ n c, s.chase n c = s'.chase n c

section Step
variable {s s' : Rec} (hW : AskSet T env rx dec W) (h : AskBlind T W s s') (he : env.Made T)
include hW h he

omit hW he in
theorem control_ask (op : CtlOp) (t a : Node) (v : Value) (c : Ctx) :
    validateControl env s op t a v c = validateControl (env.using rx dec) s' op t a v c := by
  cases op <;> simp only [validateControl, validateControlSize, validateControlLt, validateControlLe, validateControlGt,
    validateControlGe, h.chase] <;> rfl

omit hW he in
theorem choiceify_ask {v : Value} (ht : W v) {c : Ctx} (hc : c.Made T) {l : List Node} (hl : ∀ n ∈ l, n.Made T) :
    validateChoiceifyMembers s l v c = validateChoiceifyMembers s' l v c := by
  unfold validateChoiceifyMembers
  refine choiceLoop_twin fun n hn => ?_
  have hn := hl n hn
  unfold choiceifyItem
  split
  · exact h.val ht hn.2 hc
  · exact h.chf ht (madeL hn) hc
  · exact h.val ht hn hc

omit hW in
theorem chf_ask {v : Value} (ht : W v) {c : Ctx} (hc : c.Made T) {name : String} {args : List Node}
    (ha : ∀ n ∈ args, n.Made T) : chfBody env s name args v c = chfBody (env.using rx dec) s' name args v c := by
  unfold chfBody
  rw [lookup_using]
  cases hl : c.lookupRule env name args with
  | error e => rfl
  | ok q =>
    obtain ⟨n, c'⟩ := q
    obtain ⟨h1, h2⟩ := lookup_made he hc ha hl
    simp only [Res.ofExcept, Res.bind]
    split
    · exact choiceify_ask h ht h2 (madeL h1)
    · exact h.chf ht (madeL h1) h2
    · rfl

theorem val_ask {v : Value} (ht : W v) {n : Node} (hn : n.Made T) {c : Ctx} (hc : c.Made T) :
    valBody env s v n c = valBody (env.using rx dec) s' v n c := by
  cases n with
  | literal l => rfl
  | prelude p => rfl
  | choice l => exact choiceLoop_twin fun n hm => h.val ht (madeL hn n hm) hc
  | map l =>
    simp only [valBody]
    cases v with
    | map m =>
      have := seqLoopS_twin (R := Eqq (InMap W)) (f := fun mem w => s.map mem w c) (g := fun mem w => s'.map mem w c)
        (l := l) (a := WMap.new m) (b := WMap.new m)
        (fun n hm a b hab => hab.1 ▸ h.map hab.2 (madeL hn n hm) hc) ⟨rfl, hW.pair m ht, by simp [WMap.new]⟩
      simp only [validateMap]
      generalize seqLoopS (fun mem w => s.map mem w c) l (WMap.new m) = r at this ⊢
      generalize seqLoopS (fun mem w => s'.map mem w c) l (WMap.new m) = r' at this ⊢
      cases this with
      | ok hab => rw [hab.1]
      | _ => rfl
    | _ => rfl
  | array l =>
    simp only [valBody]
    cases v with
    | array xs =>
      have := seqLoopS_twin (R := Eqq (InArr W)) (f := fun mem w => s.arr mem w c) (g := fun mem w => s'.arr mem w c)
        (l := l) (a := WArr.new xs) (b := WArr.new xs)
        (fun n hm a b hab => hab.1 ▸ h.arr hab.2 (madeL hn n hm) hc) ⟨rfl, hW.elem xs ht, by simp [WArr.new]⟩
      simp only [validateArray]
      generalize seqLoopS (fun mem w => s.arr mem w c) l (WArr.new xs) = r at this ⊢
      generalize seqLoopS (fun mem w => s'.arr mem w c) l (WArr.new xs) = r' at this ⊢
      cases this with
      | ok hab => rw [hab.1]
      | _ => rfl
    | _ => rfl
  | rule name args =>
    simp only [valBody, validateRule, lookup_using]
    cases hl : c.lookupRule env name args with
    | error e => rfl
    | ok q =>
      obtain ⟨n, c'⟩ := q
      obtain ⟨h1, h2⟩ := lookup_made he hc (madeL hn) hl
      exact h.val ht h1 h2
  | group l =>
    simp only [valBody, validateStandaloneGroup]
    split
    · exact h.val ht (madeL hn _ (by simp)) hc
    · rfl
  | keyValue => rfl
  | occur => rfl
  | unwrap => rfl
  | range a b i =>
    simp only [valBody, validateRange, h.deref]
    rfl
  | ctl op t a => exact control_ask h op t a v c
  | ctlRegexp p =>
    cases v with
    | text t =>
      show (if env.regexMatch p t = true then _ else _) = if rx p t = true then _ else _
      rw [hW.regex p t hn ht]
    | _ => rfl
  | ctlCbor n =>
    cases v with
    | bytes b =>
      simp only [valBody, validateControlCbor, Env.using]
      rw [← hW.cbor hn.1 b ht]
      cases hd : env.cborDecode b with
      | error msg => rfl
      | ok d =>
        dsimp only
        cases hv : d.toValue with
        | error e => rfl
        | ok w => exact h.val (hW.decoded hn.1 b d w ht hd hv) hn.2 hc
    | _ => rfl
  | choiceify name args => exact h.chf ht (madeL hn) hc
  | choiceifyInline l => exact choiceify_ask h ht hc (madeL hn)

omit hW he in
theorem arrayValue_ask {a : WArr} (ht : InArr W a) {n : Node} (hn : n.Made T) {c : Ctx} (hc : c.Made T) :
    SRel (Eqq (InArr W)) (validateArrayValue env s n a c) (validateArrayValue (env.using rx dec) s' n a c) := by
  unfold validateArrayValue
  cases ea : a.array with
  | nil => exact .err _ ⟨rfl, ht⟩
  | cons v vs =>
    dsimp only
    rw [← h.val (ht.1 v (by rw [ea]; simp)) hn hc]
    cases s.val v n c with
    | ok u => exact apop_in ht
    | err e => exact .err e ⟨rfl, ht⟩
    | panic => exact .panic
    | fuel => exact .fuel

omit hW in
theorem arr_ask {a : WArr} (ht : InArr W a) {n : Node} (hn : n.Made T) {c : Ctx} (hc : c.Made T) :
    SRel (Eqq (InArr W)) (arrBody env s n a c) (arrBody (env.using rx dec) s' n a c) := by
  cases n with
  | occur o m =>
    refine occurLoopS_twin (R := Eqq (InArr W)) (f := fun w => s.arr m w c) (g := fun w => s'.arr m w c) (fun a b hab => ?_) ⟨rfl, ht⟩
    obtain ⟨rfl, hab⟩ := hab
    exact h.arr hab (n := m) hn hc
  | keyValue k t cut => exact arrayValue_ask h ht hn.2 hc
  | rule name args =>
    simp only [arrBody, lookup_using]
    cases hl : c.lookupRule env name args with
    | error e => exact .err e ⟨rfl, ht⟩
    | ok q =>
      obtain ⟨n, c'⟩ := q
      obtain ⟨h1, h2⟩ := lookup_made he hc (madeL hn) hl
      exact h.arr ht h1 h2
  | unwrap name args =>
    simp only [arrBody, lookup_using]
    cases hl : c.lookupRule env name args with
    | error e => exact .err e ⟨rfl, ht⟩
    | ok q =>
      obtain ⟨n, c'⟩ := q
      obtain ⟨h1, h2⟩ := lookup_made he hc (madeL hn) hl
      dsimp only
      unfold validateArrayUnwrap
      split
      · exact seqLoopS_twin (R := Eqq (InArr W)) (fun n hm a b hab => hab.1 ▸ h.arr hab.2 (madeL h1 n hm) h2) ⟨rfl, ht⟩
      · exact .err _ ⟨rfl, ht⟩
  | choice l => exact choiceLoopS_twin (R := Eqq (InArr W)) (fun n hm a b hab => hab.1 ▸ h.arr hab.2 (madeL hn n hm) hc) ⟨rfl, ht⟩
  | group l =>
    simp only [arrBody, validateArrayGroup]
    have := seqLoopS_twin (R := Eqq (InArr W)) (f := fun mem w => s.arr mem w c) (g := fun mem w => s'.arr mem w c)
      (l := l) (a := a.snapshot) (b := a.snapshot) (fun n hm a b hab => hab.1 ▸ h.arr hab.2 (madeL hn n hm) hc)
      ⟨rfl, ht.1, by simp only [WArr.snapshot, List.forall_mem_cons]; exact ⟨by simp, ht.2⟩⟩
    generalize seqLoopS (fun mem w => s.arr mem w c) l a.snapshot = r at this ⊢
    generalize seqLoopS (fun mem w => s'.arr mem w c) l a.snapshot = r' at this ⊢
    cases this with
    | @ok a' b' hab =>
      obtain ⟨rfl, hab⟩ := hab
      exact acommit_in hab
    | @err e a' b' hab =>
      obtain ⟨rfl, hab⟩ := hab
      have := arewind_in hab
      dsimp only
      generalize a'.rewind = r at this ⊢
      cases this with
      | ok h => exact .err e h
      | err e h => exact .err e h
      | panic => exact .panic
      | fuel => exact .fuel
    | panic => exact .panic
    | fuel => exact .fuel
  | _ => exact arrayValue_ask h ht hn hc

omit hW he in
theorem mapKey_ask {a : WMap} (ht : InMap W a) {n : Node} (hn : n.Made T) {c : Ctx} (hc : c.Made T) :
    validateMapKey env s n a c = validateMapKey (env.using rx dec) s' n a c ∧
    ∀ p, validateMapKey env s n a c = .ok p → W p.2 := by
  have search : ∀ (msg : String) (m : VMap), (∀ p ∈ m, W p.1 ∧ W p.2) →
      mapSearchLoop (fun k => s.val k n c) msg m = mapSearchLoop (fun k => s'.val k n c) msg m ∧
      ∀ p, mapSearchLoop (fun k => s.val k n c) msg m = .ok p → W p.2 := by
    intro msg m
    induction m with
    | nil => exact fun _ => ⟨rfl, fun p hp => by cases hp⟩
    | cons q m ih =>
      intro hm
      simp only [List.forall_mem_cons] at hm
      obtain ⟨h1, h2⟩ := ih hm.2
      have h3 := h.val hm.1.1 hn hc
      simp only [mapSearchLoop, ← h3]
      cases s.val q.1 n c with
      | ok u => exact ⟨rfl, fun p hp => by cases hp; exact hm.1.2⟩
      | err e => exact ⟨h1, h2⟩
      | panic => exact ⟨rfl, fun p hp => by cases hp⟩
      | fuel => exact ⟨rfl, fun p hp => by cases hp⟩
  cases n with
  | literal l =>
    refine ⟨rfl, fun p hp => ?_⟩
    simp only [validateMapKey, mapSearchLiteral] at hp
    cases hg : VMap.get a.map l.toValue with
    | none => rw [hg] at hp; cases hp
    | some v =>
      rw [hg] at hp
      cases hp
      exact (ht.1 _ (vget_mem hg)).2
  | _ => exact search _ _ ht.1

omit hW in
theorem map_ask {a : WMap} (ht : InMap W a) {n : Node} (hn : n.Made T) {c : Ctx} (hc : c.Made T) :
    SRel (Eqq (InMap W)) (mapBody env s n a c) (mapBody (env.using rx dec) s' n a c) := by
  cases n with
  | occur o m =>
    refine occurLoopS_twin (R := Eqq (InMap W)) (f := fun w => s.map m w c) (g := fun w => s'.map m w c) (fun a b hab => ?_) ⟨rfl, ht⟩
    obtain ⟨rfl, hab⟩ := hab
    exact h.map hab (n := m) hn hc
  | keyValue k t cut =>
    simp only [mapBody, validateMapKeyvalue]
    obtain ⟨h1, h2⟩ := mapKey_ask (env := env) (rx := rx) (dec := dec) h ht hn.1 hc
    rw [← h1]
    cases hk : validateMapKey env s k a c with
    | ok p =>
      dsimp only
      rw [← h.val (h2 p hk) hn.2 hc]
      cases s.val p.2 t c with
      | ok u => exact wremove_in ht p.1
      | err e =>
        dsimp only
        split <;> exact .err _ ⟨rfl, ht⟩
      | panic => exact .panic
      | fuel => exact .fuel
    | err e => exact .err e ⟨rfl, ht⟩
    | panic => exact .panic
    | fuel => exact .fuel
  | rule name args =>
    simp only [mapBody, lookup_using]
    cases hl : c.lookupRule env name args with
    | error e => exact .err e ⟨rfl, ht⟩
    | ok q =>
      obtain ⟨n, c'⟩ := q
      obtain ⟨h1, h2⟩ := lookup_made he hc (madeL hn) hl
      exact h.map ht h1 h2
  | unwrap name args =>
    simp only [mapBody, lookup_using]
    cases hl : c.lookupRule env name args with
    | error e => exact .err e ⟨rfl, ht⟩
    | ok q =>
      obtain ⟨n, c'⟩ := q
      obtain ⟨h1, h2⟩ := lookup_made he hc (madeL hn) hl
      dsimp only
      unfold validateMapUnwrap
      split
      · exact seqLoopS_twin (R := Eqq (InMap W)) (fun n hm a b hab => hab.1 ▸ h.map hab.2 (madeL h1 n hm) h2) ⟨rfl, ht⟩
      · exact .err _ ⟨rfl, ht⟩
  | choice l => exact choiceLoopS_twin (R := Eqq (InMap W)) (fun n hm a b hab => hab.1 ▸ h.map hab.2 (madeL hn n hm) hc) ⟨rfl, ht⟩
  | choiceifyInline l =>
    exact choiceLoopS_twin (R := Eqq (InMap W)) (fun n hm a b hab => hab.1 ▸ h.map hab.2 (madeL hn n hm) hc) ⟨rfl, ht⟩
  | choiceify name args => exact h.mchf ht (madeL hn) hc
  | group l =>
    simp only [mapBody, validateMapGroup]
    have := seqLoopS_twin (R := Eqq (InMap W)) (f := fun mem w => s.map mem w c) (g := fun mem w => s'.map mem w c)
      (l := l) (a := a.snapshot) (b := a.snapshot) (fun n hm a b hab => hab.1 ▸ h.map hab.2 (madeL hn n hm) hc)
      ⟨rfl, ht.1, by simp only [WMap.snapshot, List.forall_mem_cons]; exact ⟨by simp, ht.2⟩⟩
    generalize seqLoopS (fun mem w => s.map mem w c) l a.snapshot = r at this ⊢
    generalize seqLoopS (fun mem w => s'.map mem w c) l a.snapshot = r' at this ⊢
    cases this with
    | @ok a' b' hab =>
      obtain ⟨rfl, hab⟩ := hab
      exact wcommit_in hab
    | @err e a' b' hab =>
      obtain ⟨rfl, hab⟩ := hab
      have := wrewind_in hab
      dsimp only
      generalize a'.rewind = r at this ⊢
      cases this with
      | ok h => exact .err _ h
      | err e h => exact .err e h
      | panic => exact .panic
      | fuel => exact .fuel
    | panic => exact .panic
    | fuel => exact .fuel
  | _ => exact .err _ ⟨rfl, ht⟩

omit hW in
theorem mchf_ask {a : WMap} (ht : InMap W a) {name : String} {args : List Node}
    (ha : ∀ n ∈ args, n.Made T) {c : Ctx} (hc : c.Made T) :
    SRel (Eqq (InMap W)) (mchfBody env s name args a c) (mchfBody (env.using rx dec) s' name args a c) := by
  unfold mchfBody
  rw [lookup_using]
  cases hl : c.lookupRule env name args with
  | error e => exact .err e ⟨rfl, ht⟩
  | ok q =>
    obtain ⟨n, c'⟩ := q
    obtain ⟨h1, h2⟩ := lookup_made he hc ha hl
    dsimp only
    split
    · refine choiceLoopS_twin (R := Eqq (InMap W)) (fun n hm a b hab => ?_) ⟨rfl, ht⟩
      obtain ⟨rfl, hab⟩ := hab
      have hn := madeL h1 n hm
      unfold mapChoiceifyItem
      split
      · exact h.map hab hn.2 h2
      · exact h.mchf hab (madeL hn) h2
      · exact h.map hab hn h2
    · exact h.mchf ht (madeL h1) h2
    · exact .err _ ⟨rfl, ht⟩

theorem step_ask : AskBlind T W (step env s) (step (env.using rx dec) s') where
  val ht hn hc := val_ask hW h he ht hn hc
  chf ht ha hc := chf_ask h he ht hc ha
  arr ht hn hc := arr_ask h he ht hn hc
  map ht hn hc := map_ask h he ht hn hc
  mchf ht ha hc := mchf_ask h he ht ha hc
  deref n c := by
    show derefBody env s n c = derefBody (env.using rx dec) s' n c
    unfold derefBody
    simp only [lookup_using, h.deref]
  chase n c := by
    show chaseBody env s n c = chaseBody (env.using rx dec) s' n c
    unfold chaseBody
    simp only [lookup_using, h.chase]

end Step

theorem fns_ask (hW : AskSet T env rx dec W) (he : env.Made T) : ∀ k, AskBlind T W (fns env k) (fns (env.using rx dec) k)
  | 0 => ⟨fun _ _ _ => rfl, fun _ _ _ => rfl, fun _ _ _ => .fuel, fun _ _ _ => .fuel, fun _ _ _ => .fuel,
      fun _ _ => rfl, fun _ _ => rfl⟩
  | k + 1 => step_ask hW (fns_ask hW he k) he

end Cddl
