import Verif.Model.Bare
import Verif.Proofs.Limit

/-! # Without `.cbor` the feature makes no difference -/

namespace Cddl

mutual
/-- The operator `.cbor` is not used, nor, with `nm = false`, any name. -/
def Node.noCbor (nm : Bool) : Node → Bool
  | .ctlCbor _ => false
  | .literal _ | .prelude _ | .ctlRegexp _ => true
  | .rule _ l | .unwrap _ l | .choiceify _ l => nm && Node.noCbors nm l
  | .choice l | .map l | .array l | .group l | .choiceifyInline l => Node.noCbors nm l
  | .keyValue a b _ | .range a b _ | .ctl _ a b => a.noCbor nm && b.noCbor nm
  | .occur _ n => n.noCbor nm
/-- The same of each. -/
def Node.noCbors (nm : Bool) : List Node → Bool
  | [] => true
  | n :: ns => n.noCbor nm && Node.noCbors nm ns
end

theorem Node.noCbors_mem {nm : Bool} : ∀ {l : List Node}, Node.noCbors nm l = true → ∀ n ∈ l, n.noCbor nm = true
  | [], _, _, h => (nomatch h)
  | a :: l, h, n, hn => by
    simp only [Node.noCbors, Bool.and_eq_true] at h
    rcases List.mem_cons.mp hn with rfl | hn
    · exact h.1
    · exact Node.noCbors_mem h.2 n hn

/-- No argument bound in the scope uses `.cbor`. -/
def Ctx.noCbor : Ctx → Prop
  | .root _ => True
  | .frame g p _ => (∀ a ∈ g, a.2.noCbor true = true) ∧ p.noCbor

/-- No rule uses `.cbor`. -/
def Env.noCbor (env : Env) : Prop := ∀ s rd, env.lookup s = .ok rd → rd.node.noCbor true = true

theorem gmapFind_noCbor {s : String} {n : Node} : ∀ {g : List (String × Node)}, (∀ a ∈ g, a.2.noCbor true = true) →
    gmapFind g s = some n → n.noCbor true = true
  | [], _, h => (nomatch h)
  | (a, b) :: g, hg, h => by
    simp only [gmapFind] at h
    cases hr : gmapFind g s with
    | some y =>
      rw [hr] at h
      cases h
      exact gmapFind_noCbor (fun q hq => hg q (by simp [hq])) hr
    | none =>
      rw [hr] at h
      dsimp only at h
      split at h
      · cases h
        exact hg (a, n) (by simp)
      · cases h

theorem lookup_noCbor {env : Env} {nm : Bool} (he : nm = true → env.noCbor) {c : Ctx} (hc : nm = true → c.noCbor) {s : String}
    {as : List Node} (ha : (nm && Node.noCbors nm as) = true) {n : Node} {d : Ctx} (h : c.lookupRule env s as = .ok (n, d)) :
    n.noCbor nm = true ∧ (nm = true → d.noCbor) := by
  cases nm with
  | false => cases ha
  | true =>
  have he := he rfl
  have hc := hc rfl
  have ha : Node.noCbors true as = true := ha
  suffices n.noCbor true = true ∧ d.noCbor from ⟨this.1, fun _ => this.2⟩
  have key : ∀ {r}, ((env.lookup s).bind fun rd => (c.derive rd as).bind fun c => Except.ok (rd.node, c)) = r → r = .ok (n, d) →
      n.noCbor true = true ∧ d.noCbor := by
    rintro r rfl h
    cases hl : env.lookup s with
    | error e => rw [hl] at h; simp [Except.bind] at h
    | ok rd =>
      rw [hl] at h
      simp only [Except.bind] at h
      cases hd : c.derive rd as with
      | error e => rw [hd] at h; simp at h
      | ok d' =>
        rw [hd] at h
        injection h with h
        injection h with h1 h2
        subst h1 h2
        simp only [Ctx.derive, Ctx.incDepth] at hd
        split at hd
        · cases hd
        · split at hd
          · cases hd
          · cases hd
            exact ⟨he s rd hl, fun p hp => Node.noCbors_mem ha _ (List.of_mem_zip hp).2, hc⟩
  cases c with
  | root m => exact key rfl h
  | frame g p m =>
    simp only [Ctx.lookupRule] at h
    cases hg : gmapFind g s with
    | some y =>
      rw [hg] at h
      injection h with h
      injection h with h1 h2
      subst h1 h2
      exact ⟨gmapFind_noCbor hc.1 hg, hc.2⟩
    | none =>
      rw [hg] at h
      exact key rfl h

/-! ## Loops -/

theorem choiceLoop_same {f g : Node → Res Unit} {m : String} : ∀ {l : List Node}, (∀ n ∈ l, f n = g n) →
    choiceLoop f m l = choiceLoop g m l
  | [], _ => rfl
  | n :: l, h => by
    simp only [choiceLoop, h n (by simp), choiceLoop_same (l := l) fun q hq => h q (by simp [hq])]

theorem choiceLoopS_same {σ : Type} {f g : Node → σ → SRes σ} {stop : Err → Bool} {m : String} : ∀ {l : List Node},
    (∀ n ∈ l, ∀ w, f n w = g n w) → ∀ w, choiceLoopS f stop m l w = choiceLoopS g stop m l w
  | [], _, _ => rfl
  | n :: l, h, w => by
    simp only [choiceLoopS, h n (by simp), choiceLoopS_same (l := l) fun q hq => h q (by simp [hq])]

theorem seqLoopS_same {σ : Type} {f g : Node → σ → SRes σ} : ∀ {l : List Node},
    (∀ n ∈ l, ∀ w, f n w = g n w) → ∀ w, seqLoopS f l w = seqLoopS g l w
  | [], _, _ => rfl
  | n :: l, h, w => by
    simp only [seqLoopS, h n (by simp), seqLoopS_same (l := l) fun q hq => h q (by simp [hq])]

/-- Two versions of the functions agree where `.cbor` is not used. -/
structure SameBare (nm : Bool) (s s' : Rec) : Prop where
  val : ∀ v {n c}, n.noCbor nm = true → (nm = true → Ctx.noCbor c) → s.val v n c = s'.val v n c
  chf : ∀ t {as} v {c}, (nm && Node.noCbors nm as) = true → (nm = true → Ctx.noCbor c) → s.chf t as v c = s'.chf t as v c
  arr : ∀ {n} w {c}, n.noCbor nm = true → (nm = true → Ctx.noCbor c) → s.arr n w c = s'.arr n w c
  map : ∀ {n} w {c}, n.noCbor nm = true → (nm = true → Ctx.noCbor c) → s.map n w c = s'.map n w c
  mchf : ∀ t {as} w {c}, (nm && Node.noCbors nm as) = true → (nm = true → Ctx.noCbor c) → s.mchf t as w c = s'.mchf t as w c
  deref : ∀ {n c}, n.noCbor nm = true → (nm = true → Ctx.noCbor c) → s.deref n c = s'.deref n c
  chase : ∀ {n c}, n.noCbor nm = true → (nm = true → Ctx.noCbor c) → s.chase n c = s'.chase n c

section
variable {env : Env} {nm : Bool} {s s' : Rec} (he : nm = true → env.noCbor) (h : SameBare nm s s')
include he h

theorem look_same {α : Type} {c : Ctx} {t : String} {as : List Node} (ha : (nm && Node.noCbors nm as) = true) (hc : nm = true → c.noCbor)
    {f g : Node × Ctx → α} {k : Err → α} (hf : ∀ n d, n.noCbor nm = true → (nm = true → Ctx.noCbor d) → f (n, d) = g (n, d)) :
    (match c.lookupRule env t as with | .ok a => f a | .error e => k e) =
    (match c.lookupRule env t as with | .ok a => g a | .error e => k e) := by
  cases hl : c.lookupRule env t as with
  | error e => rfl
  | ok a =>
    obtain ⟨h1, h2⟩ := lookup_noCbor he hc ha hl
    exact hf a.1 a.2 h1 h2

theorem lookR_same {α : Type} {c : Ctx} {t : String} {as : List Node} (ha : (nm && Node.noCbors nm as) = true) (hc : nm = true → c.noCbor)
    {f g : Node × Ctx → Res α} (hf : ∀ n d, n.noCbor nm = true → (nm = true → Ctx.noCbor d) → f (n, d) = g (n, d)) :
    (Res.ofExcept (c.lookupRule env t as)).bind f = (Res.ofExcept (c.lookupRule env t as)).bind g := by
  cases hl : c.lookupRule env t as with
  | error e => rfl
  | ok a =>
    obtain ⟨h1, h2⟩ := lookup_noCbor he hc ha hl
    exact hf a.1 a.2 h1 h2

omit he in
theorem choiceifyItem_same {v : Value} {n : Node} {c : Ctx} (hn : n.noCbor nm = true) (hc : nm = true → c.noCbor) :
    choiceifyItem s v c n = choiceifyItem s' v c n := by
  cases n with
  | keyValue k t y =>
    simp only [Node.noCbor, Bool.and_eq_true] at hn
    exact h.val v hn.2 hc
  | rule t as => exact h.chf t v hn hc
  | _ => exact h.val v hn hc

omit he in
theorem mapChoiceifyItem_same {n : Node} {c : Ctx} (hn : n.noCbor nm = true) (hc : nm = true → c.noCbor) (w : WMap) :
    mapChoiceifyItem s c n w = mapChoiceifyItem s' c n w := by
  cases n with
  | keyValue k t y =>
    simp only [Node.noCbor, Bool.and_eq_true] at hn
    exact h.map w hn.2 hc
  | rule t as => exact h.mchf t w hn hc
  | _ => exact h.map w hn hc

omit he in
theorem arrayValue_same {n : Node} {c : Ctx} (hn : n.noCbor nm = true) (hc : nm = true → c.noCbor) (w : WArr) :
    validateArrayValue env s n w c = validateArrayValue env s' n w c := by
  unfold validateArrayValue
  split
  · rw [h.val _ hn hc]
  · rfl

omit he in
theorem control_same {o : CtlOp} {t a : Node} {v : Value} {c : Ctx} (ht : t.noCbor nm = true) (ha : a.noCbor nm = true)
    (hc : nm = true → c.noCbor) : validateControl env s o t a v c = validateControl env s' o t a v c := by
  cases o <;>
    simp only [validateControl, validateControlSize, validateControlLt, validateControlLe, validateControlGt, validateControlGe,
      h.chase ht hc, h.chase ha hc]

theorem val_same {v : Value} {n : Node} {c : Ctx} (hn : n.noCbor nm = true) (hc : nm = true → c.noCbor) :
    valBodyBare env s v n c = valBody env s' v n c := by
  cases n with
  | ctlCbor n => cases hn
  | choice l => exact choiceLoop_same fun n m => h.val v (Node.noCbors_mem hn n m) hc
  | map l =>
    simp only [valBodyBare, valBody, validateMap]
    cases v <;> try rfl
    dsimp only
    rw [seqLoopS_same fun n m w => h.map w (Node.noCbors_mem hn n m) hc]
  | array l =>
    simp only [valBodyBare, valBody, validateArray]
    cases v <;> try rfl
    dsimp only
    rw [seqLoopS_same fun n m w => h.arr w (Node.noCbors_mem hn n m) hc]
  | rule t as => exact lookR_same he h hn hc fun n d hn hd => h.val v hn hd
  | group l =>
    match l, hn with
    | [], _ => rfl
    | [m], hn => exact h.val v (Node.noCbors_mem hn m (by simp)) hc
    | _ :: _ :: _, _ => rfl
  | range a b i =>
    simp only [Node.noCbor, Bool.and_eq_true] at hn
    simp only [valBodyBare, valBody, validateRange, h.deref hn.1 hc, h.deref hn.2 hc]
  | ctl o a b =>
    simp only [Node.noCbor, Bool.and_eq_true] at hn
    exact control_same h hn.1 hn.2 hc
  | choiceify t as => exact h.chf t v hn hc
  | choiceifyInline l => exact choiceLoop_same fun n m => choiceifyItem_same h (Node.noCbors_mem hn n m) hc
  | _ => rfl

theorem chf_same {t : String} {as : List Node} {v : Value} {c : Ctx} (ha : (nm && Node.noCbors nm as) = true) (hc : nm = true → c.noCbor) :
    chfBody env s t as v c = chfBody env s' t as v c := by
  refine lookR_same he h ha hc fun n d hn hd => ?_
  cases n with
  | group l => exact choiceLoop_same fun n m => choiceifyItem_same h (Node.noCbors_mem hn n m) hd
  | rule t as => exact h.chf t v hn hd
  | _ => rfl

theorem arr_same {n : Node} {w : WArr} {c : Ctx} (hn : n.noCbor nm = true) (hc : nm = true → c.noCbor) :
    arrBody env s n w c = arrBody env s' n w c := by
  cases n with
  | occur o n =>
    have : (fun w => s.arr n w c) = fun w => s'.arr n w c := funext fun w => h.arr w hn hc
    simp only [arrBody, validateArrayOccur, this]
  | keyValue k t y =>
    simp only [Node.noCbor, Bool.and_eq_true] at hn
    exact arrayValue_same h hn.2 hc w
  | rule t as => exact look_same he h hn hc fun n d hn hd => h.arr w hn hd
  | unwrap t as =>
    refine look_same he h hn hc (f := fun a => validateArrayUnwrap s a.1 w a.2) (g := fun a => validateArrayUnwrap s' a.1 w a.2)
      fun n d hn hd => ?_
    cases n with
    | array l => exact seqLoopS_same (fun n m w => h.arr w (Node.noCbors_mem hn n m) hd) w
    | _ => rfl
  | choice l => exact choiceLoopS_same (fun n m w => h.arr w (Node.noCbors_mem hn n m) hc) w
  | group l =>
    simp only [arrBody, validateArrayGroup]
    rw [seqLoopS_same fun n m w => h.arr w (Node.noCbors_mem hn n m) hc]
  | _ => exact arrayValue_same h hn hc w

theorem mchf_same {t : String} {as : List Node} {w : WMap} {c : Ctx} (ha : (nm && Node.noCbors nm as) = true) (hc : nm = true → c.noCbor) :
    mchfBody env s t as w c = mchfBody env s' t as w c := by
  refine look_same he h ha hc (f := fun a => match a.1 with
      | .group members => validateMapChoiceifyMembers s members w a.2
      | .rule name' args' => s.mchf name' args' w a.2
      | _ => .err (.structural "improper map choiceify target") w)
    (g := fun a => match a.1 with
      | .group members => validateMapChoiceifyMembers s' members w a.2
      | .rule name' args' => s'.mchf name' args' w a.2
      | _ => .err (.structural "improper map choiceify target") w) fun n d hn hd => ?_
  cases n with
  | group l => exact choiceLoopS_same (fun n m w => mapChoiceifyItem_same h (Node.noCbors_mem hn n m) hd w) w
  | rule t as => exact h.mchf t w hn hd
  | _ => rfl

theorem map_same {n : Node} {w : WMap} {c : Ctx} (hn : n.noCbor nm = true) (hc : nm = true → c.noCbor) :
    mapBody env s n w c = mapBody env s' n w c := by
  cases n with
  | occur o n =>
    have : (fun w => s.map n w c) = fun w => s'.map n w c := funext fun w => h.map w hn hc
    simp only [mapBody, validateMapOccur, this]
  | keyValue k t y =>
    simp only [Node.noCbor, Bool.and_eq_true] at hn
    have h1 : (fun key => s.val key k c) = fun key => s'.val key k c := funext fun v => h.val v hn.1 hc
    have h2 : validateMapKey env s k w c = validateMapKey env s' k w c := by
      cases k <;> first | rfl | simp only [validateMapKey, mapSearch, h1]
    simp only [mapBody, validateMapKeyvalue, h2]
    cases validateMapKey env s' k w c with
    | ok a =>
      dsimp only
      rw [h.val a.2 hn.2 hc]
    | _ => rfl
  | rule t as => exact look_same he h hn hc fun n d hn hd => h.map w hn hd
  | unwrap t as =>
    refine look_same he h hn hc (f := fun a => validateMapUnwrap s a.1 w a.2) (g := fun a => validateMapUnwrap s' a.1 w a.2)
      fun n d hn hd => ?_
    cases n with
    | map l => exact seqLoopS_same (fun n m w => h.map w (Node.noCbors_mem hn n m) hd) w
    | _ => rfl
  | choice l => exact choiceLoopS_same (fun n m w => h.map w (Node.noCbors_mem hn n m) hc) w
  | choiceifyInline l => exact choiceLoopS_same (fun n m w => h.map w (Node.noCbors_mem hn n m) hc) w
  | choiceify t as => exact h.mchf t w hn hc
  | group l =>
    simp only [mapBody, validateMapGroup]
    rw [seqLoopS_same fun n m w => h.map w (Node.noCbors_mem hn n m) hc]
  | _ => rfl

theorem deref_same {n : Node} {c : Ctx} (hn : n.noCbor nm = true) (hc : nm = true → c.noCbor) :
    derefBody env s n c = derefBody env s' n c := by
  cases n with
  | rule t as => exact lookR_same he h hn hc fun n d hn hd => h.deref hn hd
  | _ => rfl

theorem chase_same {n : Node} {c : Ctx} (hn : n.noCbor nm = true) (hc : nm = true → c.noCbor) :
    chaseBody env s n c = chaseBody env s' n c := by
  cases n with
  | rule t as => exact lookR_same he h hn hc fun n d hn hd => h.chase hn hd
  | _ => rfl

end

theorem fns_bare {env : Env} {nm : Bool} (he : nm = true → env.noCbor) : ∀ k, SameBare nm (fnsBare env k) (fns env k)
  | 0 => ⟨fun _ _ _ _ _ => rfl, fun _ _ _ _ _ _ => rfl, fun _ _ _ _ => rfl, fun _ _ _ _ => rfl, fun _ _ _ _ _ _ => rfl,
      fun _ _ => rfl, fun _ _ => rfl⟩
  | k + 1 =>
    have ih := fns_bare he k
    ⟨fun _ _ _ h1 h2 => val_same he ih h1 h2, fun _ _ _ _ h1 h2 => chf_same he ih h1 h2, fun _ _ h1 h2 => arr_same he ih h1 h2,
      fun _ _ h1 h2 => map_same he ih h1 h2, fun _ _ _ _ h1 h2 => mchf_same he ih h1 h2, fun h1 h2 => deref_same he ih h1 h2,
      fun h1 h2 => chase_same he ih h1 h2⟩

end Cddl
