import Verif.Proofs.Predict
import Verif.Proofs.SoundMain

/-! # Predictive schemas: entries leave alone what they cannot begin with -/

namespace Cddl

set_option linter.unusedSectionVars false

/-- Nothing is assumed of any name. -/
def Judgement.blank : Judgement := ⟨fun _ => false, fun _ => false, fun _ _ => .none, fun _ _ => .none⟩

theorem Judgement.blank_agrees (env : Env) : Judgement.blank.Agrees env := by
  intro s d _
  constructor
  · intro h; cases h
  · intro h; cases h
  · intro p; exact ⟨nofun, nofun, nofun, nofun⟩
  · intro ms _; exact ⟨nofun, nofun, nofun, nofun⟩
  · intro ms _; exact ⟨nofun, nofun, nofun, nofun⟩
  · intro q _; exact ⟨rfl, rfl, rfl⟩

/-- The front element is not in the set. -/
def WArr.Off (w : WArr) (A : Look) : Prop := ∀ x t, w.array = x :: t → ¬ A.Has x

/-- No key is in the set. -/
def WMap.Off (w : WMap) (A : Look) : Prop := ∀ p ∈ w.map, ¬ A.Has p.1

/-- The working copy is as before; success only if `b`. -/
def SRes.Still {σ : Type} (w : σ) (b : Bool) : SRes σ → Prop
  | .ok w' => w' = w ∧ b = true
  | .err e w' => w' = w ∧ PlainErr e
  | _ => True

/-- One element is taken off, or none. -/
def SRes.OneOff (w : WArr) : SRes WArr → Prop
  | .ok w' => ∃ x, w.array = x :: w'.array
  | .err e w' => w' = w ∧ PlainErr e
  | _ => True

/-- What is left alone. -/
structure CalmRec (J : Forecast) (r : Rec) : Prop where
  val : ∀ v n c, c.scope.Clear J → n.clear J = true → r.val v n c = .ok () → (n.look J).Has v
  arr : ∀ n w c k, w.Inv k → c.scope.Clear J → (n.entry J).ok = true → w.Off (n.entry J).first →
    (r.arr n w c).Still w (n.entry J).empty
  one : ∀ n w c k, w.Inv k → c.scope.Clear J → (n.entry J).ok = true → (n.entry J).one = true → (r.arr n w c).OneOff w
  map : ∀ n w c, c.scope.Clear J → (n.member J).ok = true → w.Off (n.member J).keys →
    (r.map n w c).Still w (n.member J).empty

theorem CalmRec.bot (J : Forecast) : CalmRec J Rec.bot where
  val _ _ _ _ _ h := by cases h
  arr _ _ _ _ _ _ _ _ := trivial
  one _ _ _ _ _ _ _ _ := trivial
  map _ _ _ _ _ _ := trivial

theorem plain_mismatch (m : String) : PlainErr (.mismatch m) := fun _ => rfl

theorem plain_fatal {e : Err} (h : e.isFatal = true) : PlainErr e := fun h' => by rw [h] at h'; cases h'

theorem VMap.get_mem {k v : Value} : ∀ {m : VMap}, VMap.get m k = some v → (k, v) ∈ m
  | (k', v') :: t, h => by
    simp only [VMap.get] at h
    cases hc : Value.cmp k k' with
    | lt => rw [hc] at h; cases h
    | eq =>
      rw [hc] at h
      cases (Value.cmp_eq _ _).mp hc
      cases h
      exact List.mem_cons_self
    | gt => rw [hc] at h; exact List.mem_cons_of_mem _ (VMap.get_mem h)

section Loops
variable {σ : Type}

theorem occurLoop_still {g : σ → SRes σ} {lo up : Nat} {msg : String} {b : Bool} {w : σ} (hg : (g w).Still w b) (k : Nat) :
    ∀ count, (count ≠ 0 → b = true) → (occurLoopS g lo up msg k count w).Still w (lo == 0 || b) := by
  induction k with
  | zero => intro _ _; trivial
  | succ k ih =>
    intro count hc
    simp only [occurLoopS]
    cases h : g w with
    | ok w' =>
      rw [h] at hg
      obtain ⟨hw, hb⟩ := hg
      rw [hw]
      dsimp only
      split
      · split
        · exact ⟨rfl, plain_mismatch _⟩
        · exact ⟨rfl, by simp [hb]⟩
      · exact ih _ (fun _ => hb)
    | err e w' =>
      rw [h] at hg
      obtain ⟨hw, hb⟩ := hg
      rw [hw]
      dsimp only
      split
      · split
        · exact ⟨rfl, plain_mismatch _⟩
        · rename_i hlo
          refine ⟨rfl, ?_⟩
          by_cases h0 : count = 0
          · have : lo = 0 := by omega
            simp [this]
          · simp [hc h0]
      · exact ⟨rfl, hb⟩
    | panic => trivial
    | fuel => trivial

end Loops

section Step
variable {env : Env} {J : Forecast} {r : Rec} (hl : ∀ s e, env.lookup s = .error e → e.isFatal = true)
  (hJ : J.Agrees env) (G : GoodRec env PlainErr r) (S : SoundRec env Judgement.blank r) (C : CalmRec J r)
include hl hJ G S C

theorem look_plain {c : Ctx} {s : String} {as : List Node} {e : Err} (h : c.lookupRule env s as = .error e) : PlainErr e := by
  have := lookupRule_safe (plainErr_ok hl) c s as
  rw [h] at this
  exact this

theorem val_calm {v : Value} {n : Node} {c : Ctx} (hc : c.scope.Clear J) (hn : n.clear J = true)
    (h : valBody env r v n c = .ok ()) : (n.look J).Has v := by
  cases n <;> simp only [valBody, reduceCtorEq] at h
  case literal l =>
    unfold validateLiteral at h
    split at h
    · rename_i hb
      simp only [Value.beq, beq_iff_eq] at hb
      cases (Value.cmp_eq _ _).mp hb
      exact leaf_look (env := env) (.literal .root l) rfl
    · cases h
  case «prelude» p => exact prelude_look (prelude_ok h)
  case choice l =>
    obtain ⟨m, hm, h⟩ := choiceLoop_ok h
    simp only [Node.clear] at hn
    simp only [Node.look]
    exact looks_mem hm (C.val _ _ _ hc (clears_mem hn m hm) h)
  case map ms =>
    cases v <;> simp only [validateMap, reduceCtorEq] at h
    simp [Node.look, Look.Has, Atom.Has, Value.sort]
  case array ms =>
    cases v <;> simp only [validateArray, reduceCtorEq] at h
    simp [Node.look, Look.Has, Atom.Has, Value.sort]
  case rule s as =>
    obtain ⟨⟨n, c'⟩, h1, h⟩ := bind_ok h
    simp only [Node.clear, Bool.and_eq_true] at hn
    simp only [Node.look]
    obtain ⟨hc', ⟨ha, ho⟩ | ⟨d, rfl, hd⟩⟩ := resolves_clear hJ hc hn.2 (look_resolves (ofExcept_ok h1))
    · rw [ho.1]; trivial
    · have := hd.type hn.1
      exact Look.within_has this.2 (C.val _ _ _ hc' this.1 h)
  case group ms =>
    unfold validateStandaloneGroup at h
    split at h
    · simp only [Node.clear, Node.clears, Bool.and_true] at hn
      simp only [Node.look, Node.looks, Look.has_or]
      exact .inl (C.val _ _ _ hc hn h)
    · cases h
  case range a b i =>
    obtain ⟨la, h1, h⟩ := bind_ok h
    obtain ⟨lb, h2, h⟩ := bind_ok h
    exact range_look (.range (S.deref _ _ _ h1) (S.deref _ _ _ h2) (range_ok h))
  case ctl op t a => exact ctl_look (control_ok S.chase h)
  case ctlRegexp p =>
    cases v <;> simp only [validateControlRegexp, reduceCtorEq] at h
    simp [Node.look, Look.Has, Atom.Has, Value.sort]
  case ctlCbor n =>
    cases v <;> simp only [validateControlCbor, reduceCtorEq] at h
    simp [Node.look, Look.Has, Atom.Has, Value.sort]
  case choiceify => simp only [Node.look]; trivial
  case choiceifyInline => simp only [Node.look]; trivial

theorem arrayValue_calm {n : Node} {w : WArr} {c : Ctx} {k : Nat} (hw : w.Inv k) (hc : c.scope.Clear J) (hn : n.clear J = true)
    (ho : w.Off (n.look J)) : (validateArrayValue env r n w c).Still w false := by
  unfold validateArrayValue
  split
  · rename_i x t hx
    have hs := G.val x n c (hw.1 x (by rw [hx]; simp))
    split
    · rename_i h
      exact absurd (C.val _ _ _ hc hn h) (ho _ _ hx)
    · cases h : r.val x n c with
      | ok => rename_i h' _; exact absurd h h'
      | err e => rw [h] at hs; exact ⟨rfl, hs⟩
      | panic => trivial
      | fuel => trivial
  · exact ⟨rfl, plain_mismatch _⟩

theorem arrSeq_calm {w : WArr} {c : Ctx} {k : Nat} (hw : w.Inv k) (hc : c.scope.Clear J) : ∀ {l : List Node},
    (ItemFacts.seq (Node.entries J l)).ok = true → w.Off (ItemFacts.seq (Node.entries J l)).first →
    (seqLoopS (fun m w => r.arr m w c) l w).Still w (ItemFacts.seq (Node.entries J l)).empty
  | [], _, _ => ⟨rfl, rfl⟩
  | n :: ns, hn, ho => by
    simp only [Node.entries] at hn ho ⊢
    obtain ⟨h1, h2, _⟩ := ItemFacts.seq_ok hn
    have h := C.arr n w c k hw hc h1 fun x t hx hh => ho x t hx (by simp only [ItemFacts.seq, Look.has_or]; exact .inl hh)
    simp only [seqLoopS]
    cases hr : r.arr n w c with
    | ok w' =>
      rw [hr] at h
      obtain ⟨rfl, he⟩ := h
      have := arrSeq_calm hw hc h2 fun x t hx hh => ho x t hx (by
        simp only [ItemFacts.seq, Look.has_or, Look.has_when]; exact .inr ⟨he, hh⟩)
      simp only [ItemFacts.seq, he, Bool.true_and]
      exact this
    | err e w' => rw [hr] at h; exact h
    | panic => trivial
    | fuel => trivial

theorem arrChoice_calm {msg : String} {w : WArr} {c : Ctx} {k : Nat} (hw : w.Inv k) (hc : c.scope.Clear J) : ∀ {l : List Node},
    (ItemFacts.choice (Node.entries J l)).ok = true → w.Off (ItemFacts.choice (Node.entries J l)).first →
    (choiceLoopS (fun m w => r.arr m w c) Err.isFatal msg l w).Still w (ItemFacts.choice (Node.entries J l)).empty
  | [], _, _ => ⟨rfl, plain_mismatch _⟩
  | [n], hn, ho => by
    simp only [Node.entries, ItemFacts.choice] at hn ho ⊢
    have h := C.arr n w c k hw hc hn ho
    simp only [choiceLoopS]
    cases hr : r.arr n w c with
    | ok w' => rw [hr] at h; exact h
    | err e w' =>
      rw [hr] at h
      dsimp only
      split
      · exact h
      · exact ⟨h.1, plain_mismatch _⟩
    | panic => trivial
    | fuel => trivial
  | n :: m :: ns, hn, ho => by
    simp only [Node.entries, ItemFacts.choice, Bool.and_eq_true, Bool.not_eq_true'] at hn ho
    have h := C.arr n w c k hw hc hn.1.1.1 fun x t hx hh => ho x t hx (Look.has_or.mpr (.inl hh))
    have h2 := arrChoice_calm (l := m :: ns) (msg := msg) hw hc hn.1.1.2 fun x t hx hh => ho x t hx (Look.has_or.mpr (.inr hh))
    rw [choiceLoopS]
    cases hr : r.arr n w c with
    | ok w' =>
      rw [hr] at h
      rw [hn.1.2] at h
      cases h.2
    | err e w' =>
      rw [hr] at h
      obtain ⟨rfl, he⟩ := h
      dsimp only
      split
      · exact ⟨rfl, he⟩
      · exact h2
    | panic => trivial
    | fuel => trivial

theorem Still.with {e : ItemFacts} {b : Bool} {w : WArr} {x : SRes WArr} (h : x.Still w e.empty) :
    x.Still w { e with ok := b }.empty := h

theorem still_le {σ : Type} {w : σ} {b b' : Bool} {x : SRes σ} (h : x.Still w b) (hb : b = true → b' = true) : x.Still w b' := by
  cases x with
  | ok w' => exact ⟨h.1, hb h.2⟩
  | err e w' => exact h
  | panic => trivial
  | fuel => trivial

theorem entry_le {e p : ItemFacts} (h : e.le p = true) :
    e.ok = true ∧ (∀ v, e.first.Has v → p.first.Has v) ∧ (e.empty = true → p.empty = true) ∧
      (∀ v, e.clash.Has v → p.clash.Has v) := by
  simp only [ItemFacts.le, Bool.and_eq_true, Bool.or_eq_true, Bool.not_eq_true'] at h
  refine ⟨h.1.1.1.1, fun v => Look.within_has h.1.1.1.2, fun he => ?_, fun v => Look.within_has h.1.2⟩
  rcases h.1.1.2 with h | h
  · rw [he] at h; cases h
  · exact h

theorem member_le {e p : MemberFacts} (h : e.le p = true) :
    e.ok = true ∧ (∀ v, e.keys.Has v → p.keys.Has v) ∧ (e.empty = true → p.empty = true) :=
  ⟨(MemberFacts.le_spec h).1, (MemberFacts.le_spec h).2.1, (MemberFacts.le_spec h).2.2.1⟩

theorem arr_calm {n : Node} {w : WArr} {c : Ctx} {k : Nat} (hw : w.Inv k) (hc : c.scope.Clear J) (hn : (n.entry J).ok = true)
    (ho : w.Off (n.entry J).first) : (arrBody env r n w c).Still w (n.entry J).empty := by
  by_cases hi : n.isItem = true
  · rw [item_entry hi] at hn ho ⊢
    have := arrayValue_calm hl hJ G S C (c := c) hw hc hn ho
    cases n <;> first | exact this | cases hi
  cases n <;> first | exact absurd rfl hi | skip
  case choice l =>
    simp only [Node.entry] at hn ho ⊢
    exact arrChoice_calm hl hJ G S C hw hc hn ho
  case rule s as =>
    simp only [arrBody]
    simp only [Node.entry, Bool.and_eq_true] at hn ho ⊢
    cases hr : c.lookupRule env s as with
    | error e => exact ⟨rfl, look_plain hl hJ G S C hr⟩
    | ok a =>
      obtain ⟨n, c'⟩ := a
      dsimp only
      obtain ⟨hc', ⟨ha, hp⟩ | ⟨d, rfl, hd⟩⟩ := resolves_clear hJ hc hn.2 (look_resolves hr)
      · rw [hp.2.1] at ho
        have := C.arr n w c' k hw hc' ha.2.1 fun x t hx _ => ho x t hx trivial
        exact still_le hl hJ G S C this fun h => by rw [ha.2.2.1] at h; cases h
      · obtain ⟨h1, h2, h3, _⟩ := entry_le hl hJ G S C (hd.entry hn.1)
        exact still_le hl hJ G S C (C.arr _ w c' k hw hc' h1 fun x t hx hh => ho x t hx (h2 x hh)) h3
  case group l =>
    simp only [Node.entry] at hn ho ⊢
    have := arrSeq_calm hl hJ G S C (w := w.snapshot) hw.snapshot hc hn ho
    simp only [arrBody, validateArrayGroup]
    cases hr : seqLoopS (fun m w => r.arr m w c) l w.snapshot with
    | ok w' =>
      rw [hr] at this
      obtain ⟨rfl, he⟩ := this
      exact ⟨rfl, he⟩
    | err e w' =>
      rw [hr] at this
      obtain ⟨rfl, he⟩ := this
      exact ⟨rfl, he⟩
    | panic => trivial
    | fuel => trivial
  case keyValue key t cut =>
    simp only [Node.entry] at hn ho ⊢
    exact arrayValue_calm hl hJ G S C hw hc hn ho
  case occur o n =>
    simp only [Node.entry, ItemFacts.occur, Bool.and_eq_true, Bool.not_eq_true'] at hn ho ⊢
    have := C.arr n w c k hw hc hn.1.1 ho
    have := occurLoop_still (lo := o.limits.1) (up := o.limits.2) (msg := "more array element [" ++ occurDisplay env.fmtF64 o n ++ "]")
      (g := fun w => r.arr n w c) this (o.limits.2 + 1) 0 (fun h => absurd rfl h)
    rw [hn.1.2, Bool.or_false] at this
    exact this
  case unwrap s as =>
    simp only [arrBody]
    simp only [Node.entry, Bool.and_eq_true] at hn ho ⊢
    cases hr : c.lookupRule env s as with
    | error e => exact ⟨rfl, look_plain hl hJ G S C hr⟩
    | ok a =>
      obtain ⟨n, c'⟩ := a
      dsimp only
      obtain ⟨hc', ⟨ha, hp⟩ | ⟨d, hd', hd⟩⟩ := resolves_clear hJ hc hn.2 (look_resolves hr)
      · rw [hp.2.2.2.1] at hn; cases hn.1
      · unfold validateArrayUnwrap
        split
        · obtain ⟨h1, h2, h3, _⟩ := entry_le hl hJ G S C (hd.unwrapEntry hn.1 _ hd')
          exact still_le hl hJ G S C (arrSeq_calm hl hJ G S C hw hc' h1 fun x t hx hh => ho x t hx (h2 x hh)) h3
        · exact ⟨rfl, plain_mismatch _⟩

theorem arrayValue_one {n : Node} {w : WArr} {c : Ctx} {k : Nat} (hw : w.Inv k) : (validateArrayValue env r n w c).OneOff w := by
  unfold validateArrayValue
  split
  · rename_i x t hx
    have hs := G.val x n c (hw.1 x (by rw [hx]; simp))
    split
    · unfold WArr.popFront
      rw [hx]
      dsimp only
      split <;> exact ⟨x, hx⟩
    · cases h : r.val x n c with
      | ok => rename_i h' _; exact absurd h h'
      | err e => rw [h] at hs; exact ⟨rfl, hs⟩
      | panic => trivial
      | fuel => trivial
  · exact ⟨rfl, plain_mismatch _⟩

theorem arrSeq_one {w : WArr} {c : Ctx} {k : Nat} (hw : w.Inv k) (hc : c.scope.Clear J) {l : List Node}
    (hn : (ItemFacts.seq (Node.entries J l)).ok = true) (ho : (ItemFacts.seq (Node.entries J l)).one = true) :
    (seqLoopS (fun m w => r.arr m w c) l w).OneOff w := by
  cases l with
  | nil => cases ho
  | cons n ns =>
    obtain ⟨ho1, he⟩ := ItemFacts.seq_one ho
    cases ns with
    | cons => simp only [Node.entries, reduceCtorEq] at he
    | nil =>
      have h := C.one n w c k hw hc (ItemFacts.seq_ok hn).1 ho1
      simp only [seqLoopS]
      cases hr : r.arr n w c <;> rw [hr] at h <;> exact h

theorem arrChoice_one {msg : String} {w : WArr} {c : Ctx} {k : Nat} (hw : w.Inv k) (hc : c.scope.Clear J) : ∀ {l : List Node},
    (∀ n ∈ l, (n.entry J).ok = true) → (∀ n ∈ l, (n.entry J).one = true) →
    (choiceLoopS (fun m w => r.arr m w c) Err.isFatal msg l w).OneOff w
  | [], _, _ => ⟨rfl, plain_mismatch _⟩
  | n :: ns, hn, ho => by
    have h := C.one n w c k hw hc (hn n List.mem_cons_self) (ho n List.mem_cons_self)
    have ih := arrChoice_one (msg := msg) hw hc (fun m hm => hn m (List.mem_cons_of_mem n hm))
      (fun m hm => ho m (List.mem_cons_of_mem n hm))
    simp only [choiceLoopS]
    cases hr : r.arr n w c with
    | ok w' => rw [hr] at h; exact h
    | err e w' =>
      rw [hr] at h
      obtain ⟨rfl, he⟩ := h
      dsimp only
      split
      · exact ⟨rfl, he⟩
      · exact ih
    | panic => trivial
    | fuel => trivial

theorem arr_one {n : Node} {w : WArr} {c : Ctx} {k : Nat} (hw : w.Inv k) (hc : c.scope.Clear J) (hn : (n.entry J).ok = true)
    (ho : (n.entry J).one = true) : (arrBody env r n w c).OneOff w := by
  by_cases hi : n.isItem = true
  · have := arrayValue_one hl hJ G S C (n := n) (c := c) hw
    cases n <;> first | exact this | cases hi
  cases n <;> first | exact absurd rfl hi | skip
  case choice l =>
    simp only [Node.entry] at hn ho
    exact arrChoice_one hl hJ G S C hw hc (fun m hm => ItemFacts.choice_ok hn _ (entry_mem hm))
      (fun m hm => ItemFacts.choice_one ho _ (entry_mem hm))
  case rule s as =>
    simp only [arrBody]
    simp only [Node.entry, Bool.and_eq_true] at hn ho
    cases hr : c.lookupRule env s as with
    | error e => exact ⟨rfl, look_plain hl hJ G S C hr⟩
    | ok a =>
      obtain ⟨n, c'⟩ := a
      dsimp only
      obtain ⟨hc', ⟨ha, hp⟩ | ⟨d, rfl, hd⟩⟩ := resolves_clear hJ hc hn.2 (look_resolves hr)
      · exact C.one n w c' k hw hc' ha.2.1 ha.2.2.2.2
      · have hle := hd.entry hn.1
        exact C.one _ w c' k hw hc' (ItemFacts.le_ok hle) (ItemFacts.le_one hle ho)
  case group l =>
    simp only [Node.entry] at hn ho
    have := arrSeq_one hl hJ G S C (w := w.snapshot) hw.snapshot hc hn ho
    simp only [arrBody, validateArrayGroup]
    cases hr : seqLoopS (fun m w => r.arr m w c) l w.snapshot with
    | ok w' =>
      rw [hr] at this
      obtain ⟨x, hx⟩ := this
      obtain ⟨a', s'⟩ := w'
      cases s' with
      | nil => trivial
      | cons => exact ⟨x, hx⟩
    | err e w' =>
      rw [hr] at this
      obtain ⟨rfl, he⟩ := this
      exact ⟨rfl, he⟩
    | panic => trivial
    | fuel => trivial
  case keyValue key t cut => exact arrayValue_one hl hJ G S C hw
  case occur o n => simp only [Node.entry, ItemFacts.occur, Bool.false_eq_true] at ho
  case unwrap s as =>
    simp only [arrBody]
    simp only [Node.entry, Bool.and_eq_true] at hn ho
    cases hr : c.lookupRule env s as with
    | error e => exact ⟨rfl, look_plain hl hJ G S C hr⟩
    | ok a =>
      obtain ⟨n, c'⟩ := a
      dsimp only
      obtain ⟨hc', ⟨ha, hp⟩ | ⟨d, hd', hd⟩⟩ := resolves_clear hJ hc hn.2 (look_resolves hr)
      · rw [hp.2.2.2.1] at hn; cases hn.1
      · unfold validateArrayUnwrap
        split
        · have hle := hd.unwrapEntry hn.1 _ hd'
          exact arrSeq_one hl hJ G S C hw hc' (ItemFacts.le_ok hle) (ItemFacts.le_one hle ho)
        · exact ⟨rfl, plain_mismatch _⟩

theorem mapSeq_calm {w : WMap} {c : Ctx} (hc : c.scope.Clear J) : ∀ {l : List Node},
    (MemberFacts.seq (Node.members J l)).ok = true → w.Off (MemberFacts.seq (Node.members J l)).keys →
    (seqLoopS (fun m w => r.map m w c) l w).Still w (MemberFacts.seq (Node.members J l)).empty
  | [], _, _ => ⟨rfl, rfl⟩
  | n :: ns, hn, ho => by
    simp only [Node.members, MemberFacts.seq, Bool.and_eq_true] at hn ho ⊢
    have h := C.map n w c hc hn.1.1 fun p hp hh => ho p hp (Look.has_or.mpr (.inl hh))
    simp only [seqLoopS]
    cases hr : r.map n w c with
    | ok w' =>
      rw [hr] at h
      obtain ⟨rfl, he⟩ := h
      have := mapSeq_calm hc hn.1.2 fun p hp hh => ho p hp (Look.has_or.mpr (.inr hh))
      rw [he, Bool.true_and]
      exact this
    | err e w' => rw [hr] at h; exact h
    | panic => trivial
    | fuel => trivial

theorem mapChoice_calm {msg : String} {w : WMap} {c : Ctx} (hc : c.scope.Clear J) : ∀ {l : List Node},
    (MemberFacts.choice (Node.members J l)).ok = true → w.Off (MemberFacts.choice (Node.members J l)).keys →
    (choiceLoopS (fun m w => r.map m w c) (fun e => !e.isMismatch) msg l w).Still w (MemberFacts.choice (Node.members J l)).empty
  | [], _, _ => ⟨rfl, plain_mismatch _⟩
  | [n], hn, ho => by
    simp only [Node.members, MemberFacts.choice] at hn ho ⊢
    have h := C.map n w c hc hn ho
    simp only [choiceLoopS]
    cases hr : r.map n w c with
    | ok w' => rw [hr] at h; exact h
    | err e w' =>
      rw [hr] at h
      dsimp only
      split
      · exact h
      · exact ⟨h.1, plain_mismatch _⟩
    | panic => trivial
    | fuel => trivial
  | n :: m :: ns, hn, ho => by
    simp only [Node.members, MemberFacts.choice, Bool.and_eq_true, Bool.not_eq_true'] at hn ho
    have h := C.map n w c hc hn.1.1.1 fun p hp hh => ho p hp (Look.has_or.mpr (.inl hh))
    have h2 := mapChoice_calm (l := m :: ns) (msg := msg) hc hn.1.1.2 fun p hp hh => ho p hp (Look.has_or.mpr (.inr hh))
    rw [choiceLoopS]
    cases hr : r.map n w c with
    | ok w' =>
      rw [hr] at h
      rw [hn.1.2] at h
      cases h.2
    | err e w' =>
      rw [hr] at h
      obtain ⟨rfl, he⟩ := h
      dsimp only
      split
      · exact ⟨rfl, he⟩
      · exact h2
    | panic => trivial
    | fuel => trivial

theorem searchLoop_none {f : Value → Res Unit} {msg : String} : ∀ {m : VMap}, (∀ p ∈ m, f p.1 ≠ .ok ()) →
    (∃ e, mapSearchLoop f msg m = .err (.mismatch e)) ∨ mapSearchLoop f msg m = .panic ∨ mapSearchLoop f msg m = .fuel
  | [], _ => .inl ⟨msg, rfl⟩
  | (k, v) :: t, h => by
    have := searchLoop_none (msg := msg) (m := t) fun p hp => h p (List.mem_cons_of_mem _ hp)
    simp only [mapSearchLoop]
    cases hf : f k with
    | ok => exact absurd hf (h (k, v) List.mem_cons_self)
    | err e => exact this
    | panic => exact .inr (.inl rfl)
    | fuel => exact .inr (.inr rfl)

theorem keyvalue_calm {kn t : Node} {cut : Bool} {w : WMap} {c : Ctx} (hc : c.scope.Clear J) (hk : kn.clear J = true)
    (ho : w.Off (kn.look J)) : (validateMapKeyvalue env r kn t cut w c).Still w false := by
  have key : (∃ e, validateMapKey env r kn w c = .err (.mismatch e)) ∨ validateMapKey env r kn w c = .panic ∨
      validateMapKey env r kn w c = .fuel := by
    have search : (∃ e, mapSearch env r kn w c = .err (.mismatch e)) ∨ mapSearch env r kn w c = .panic ∨
        mapSearch env r kn w c = .fuel :=
      searchLoop_none hl hJ G S C fun p hp h => ho p hp (C.val _ _ _ hc hk h)
    cases kn <;> first | exact search | skip
    case literal l =>
      simp only [validateMapKey, mapSearchLiteral]
      cases hg : VMap.get w.map l.toValue with
      | none => exact .inl ⟨_, rfl⟩
      | some v =>
        refine absurd ?_ (ho _ (VMap.get_mem hg))
        simp [Node.look, Look.Has, Atom.Has]
  unfold validateMapKeyvalue
  rcases key with ⟨e, h⟩ | h | h <;> rw [h]
  · exact ⟨rfl, plain_mismatch _⟩
  · trivial
  · trivial

theorem map_calm {n : Node} {w : WMap} {c : Ctx} (hc : c.scope.Clear J) (hn : (n.member J).ok = true)
    (ho : w.Off (n.member J).keys) : (mapBody env r n w c).Still w (n.member J).empty := by
  cases n <;> simp only [Node.member, Bool.false_eq_true] at hn ho ⊢ <;> simp only [mapBody]
  case choice l => exact mapChoice_calm hl hJ G S C hc hn ho
  case rule s as =>
    simp only [Bool.and_eq_true] at hn
    cases hr : c.lookupRule env s as with
    | error e => exact ⟨rfl, look_plain hl hJ G S C hr⟩
    | ok a =>
      obtain ⟨n, c'⟩ := a
      dsimp only
      obtain ⟨hc', ⟨ha, hp⟩ | ⟨d, rfl, hd⟩⟩ := resolves_clear hJ hc hn.2 (look_resolves hr)
      · rw [hp.2.2.2.2.1] at hn; cases hn.1
      · obtain ⟨h1, h2, h3⟩ := member_le hl hJ G S C (hd.member hn.1)
        exact still_le hl hJ G S C (C.map _ w c' hc' h1 fun p hp hh => ho p hp (h2 _ hh)) h3
  case group l =>
    have := mapSeq_calm hl hJ G S C (w := w.snapshot) hc hn ho
    simp only [validateMapGroup]
    cases hr : seqLoopS (fun m w => r.map m w c) l w.snapshot with
    | ok w' =>
      rw [hr] at this
      obtain ⟨rfl, he⟩ := this
      exact ⟨rfl, he⟩
    | err e w' =>
      rw [hr] at this
      obtain ⟨rfl, he⟩ := this
      refine ⟨rfl, ?_⟩
      cases e <;> first | exact he | exact plain_mismatch _
    | panic => trivial
    | fuel => trivial
  case keyValue key t cut =>
    simp only [Bool.and_eq_true] at hn
    exact keyvalue_calm hl hJ G S C hc hn.1 ho
  case occur o n =>
    simp only [MemberFacts.occur, Bool.and_eq_true] at hn ho ⊢
    have := C.map n w c hc hn.1 ho
    exact occurLoop_still (lo := o.limits.1) (up := o.limits.2) (msg := "map{" ++ occurDisplay env.fmtF64 o n ++ "}]")
      (g := fun w => r.map n w c) this (o.limits.2 + 1) 0 (fun h => absurd rfl h)
  case unwrap s as =>
    simp only [Bool.and_eq_true] at hn
    cases hr : c.lookupRule env s as with
    | error e => exact ⟨rfl, look_plain hl hJ G S C hr⟩
    | ok a =>
      obtain ⟨n, c'⟩ := a
      dsimp only
      obtain ⟨hc', ⟨ha, hp⟩ | ⟨d, hd', hd⟩⟩ := resolves_clear hJ hc hn.2 (look_resolves hr)
      · rw [hp.2.2.2.2.2] at hn; cases hn.1
      · unfold validateMapUnwrap
        split
        · obtain ⟨h1, h2, h3⟩ := member_le hl hJ G S C (hd.unwrapMember hn.1 _ hd')
          exact still_le hl hJ G S C (mapSeq_calm hl hJ G S C hc' h1 fun p hp hh => ho p hp (h2 _ hh)) h3
        · exact ⟨rfl, plain_mismatch _⟩

theorem step_calm : CalmRec J (step env r) where
  val _ _ _ hc hn h := val_calm hl hJ G S C hc hn h
  arr _ _ _ _ hw hc hn ho := arr_calm hl hJ G S C hw hc hn ho
  one _ _ _ _ hw hc hn ho := arr_one hl hJ G S C hw hc hn ho
  map _ _ _ hc hn ho := map_calm hl hJ G S C hc hn ho

end Step

theorem fns_calm {env : Env} {J : Forecast} (hl : ∀ s e, env.lookup s = .error e → e.isFatal = true) (hJ : J.Agrees env) :
    ∀ k, CalmRec J (fns env k)
  | 0 => CalmRec.bot J
  | k + 1 => step_calm hl hJ (fns_good (plainErr_ok hl) k) (fns_sound hl (Judgement.blank_agrees env) k) (fns_calm hl hJ k)

theorem lim_calm {env : Env} {J : Forecast} (hl : ∀ s e, env.lookup s = .error e → e.isFatal = true) (hJ : J.Agrees env) :
    CalmRec J (lim env) where
  val v n c hc hn h := by
    obtain ⟨N, hN⟩ := (lim_ev env).val v n c
    exact (fns_calm hl hJ N).val v n c hc hn (by rw [← h]; exact hN N (Nat.le_refl _))
  arr n w c k hw hc hn ho := by
    obtain ⟨N, hN⟩ := (lim_ev env).arr n w c
    rw [← hN N (Nat.le_refl _)]
    exact (fns_calm hl hJ N).arr n w c k hw hc hn ho
  one n w c k hw hc hn ho := by
    obtain ⟨N, hN⟩ := (lim_ev env).arr n w c
    rw [← hN N (Nat.le_refl _)]
    exact (fns_calm hl hJ N).one n w c k hw hc hn ho
  map n w c hc hn ho := by
    obtain ⟨N, hN⟩ := (lim_ev env).map n w c
    rw [← hN N (Nat.le_refl _)]
    exact (fns_calm hl hJ N).map n w c hc hn ho

end Cddl
