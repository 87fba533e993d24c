import Verif.Spec.Reword
import Verif.Proofs.Akin

/-! # Validation does not know the texts -/

namespace Cddl

variable {f : String → String} {ord : Prop} {rx : String → String → Bool} {fmt : F64 → String}

/-! ## Outcomes -/

/-- Related results, or errors of the same sort. -/
inductive RRel {α β : Type} (R : α → β → Prop) : Res α → Res β → Prop
  | ok {a b} : R a b → RRel R (.ok a) (.ok b)
  | err {e e'} : Err.sort e = Err.sort e' → RRel R (.err e) (.err e')
  | panic : RRel R .panic .panic
  | fuel : RRel R .fuel .fuel

/-- Verdicts of the same sort. -/
abbrev VRel := RRel fun (_ _ : Unit) => True

/-- Related working copies, or errors of the same sort with related working copies. -/
inductive TRel {σ : Type} (R : σ → σ → Prop) : SRes σ → SRes σ → Prop
  | ok {a b} : R a b → TRel R (.ok a) (.ok b)
  | err {e e' a b} : Err.sort e = Err.sort e' → R a b → TRel R (.err e a) (.err e' b)
  | panic : TRel R .panic .panic
  | fuel : TRel R .fuel .fuel

theorem SRel.toT {σ : Type} {R : σ → σ → Prop} {r s : SRes σ} (h : SRel R r s) : TRel R r s := by
  cases h with
  | ok h => exact .ok h
  | err e h => exact .err rfl h
  | panic => exact .panic
  | fuel => exact .fuel

theorem RRel.same {α : Type} {R : α → α → Prop} (h : ∀ a, R a a) (r : Res α) : RRel R r r := by
  cases r with
  | ok a => exact .ok (h a)
  | err e => exact .err rfl
  | panic => exact .panic
  | fuel => exact .fuel

theorem VRel.refl (r : Res Unit) : VRel r r := RRel.same (fun _ => trivial) r

theorem VRel.of_eq {r s : Res Unit} (h : r = s) : VRel r s := h ▸ VRel.refl r

theorem RRel.bind {α β γ δ : Type} {R : α → β → Prop} {Q : γ → δ → Prop} {r : Res α} {r' : Res β} {g : α → Res γ} {g' : β → Res δ}
    (h : RRel R r r') (hg : ∀ a b, R a b → RRel Q (g a) (g' b)) : RRel Q (r.bind g) (r'.bind g') := by
  cases h with
  | ok h => exact hg _ _ h
  | err h => exact .err h
  | panic => exact .panic
  | fuel => exact .fuel

theorem Err.sort_fatal {e e' : Err} (h : e.sort = e'.sort) : e.isFatal = e'.isFatal := by
  cases e <;> cases e' <;> simp_all [Err.sort, Err.isFatal]

theorem Err.sort_mismatch {e e' : Err} (h : e.sort = e'.sort) : e.isMismatch = e'.isMismatch := by
  cases e <;> cases e' <;> simp_all [Err.sort, Err.isMismatch]

theorem Err.sort_erase {e e' : Err} (h : e.sort = e'.sort) : e.eraseMapcut.sort = e'.eraseMapcut.sort := by
  cases e <;> cases e' <;> simp_all [Err.sort, Err.eraseMapcut]

/-! ## Loops -/

theorem choiceLoop_reword {g g' : Node → Res Unit} {msg msg' : String} {ρ : Node → Node} : ∀ {l : List Node},
    (∀ n ∈ l, VRel (g n) (g' (ρ n))) → VRel (choiceLoop g msg l) (choiceLoop g' msg' (l.map ρ))
  | [], _ => .err rfl
  | n :: ns, h => by
    have h1 := h n (by simp)
    simp only [List.map_cons, choiceLoop]
    generalize g n = r at h1 ⊢
    generalize g' (ρ n) = r' at h1 ⊢
    cases h1 with
    | ok h => exact .ok trivial
    | err h2 =>
      dsimp only
      rw [Err.sort_fatal h2]
      split
      · exact .err h2
      · exact choiceLoop_reword fun m hm => h m (by simp [hm])
    | panic => exact .panic
    | fuel => exact .fuel

section
variable {σ : Type} {R : σ → σ → Prop}

theorem choiceLoopS_reword {g g' : Node → σ → SRes σ} {stop : Err → Bool} {msg msg' : String} {ρ : Node → Node}
    (hs : ∀ e e' : Err, e.sort = e'.sort → stop e = stop e') : ∀ {l : List Node} {a b : σ},
    (∀ n ∈ l, ∀ a b, R a b → TRel R (g n a) (g' (ρ n) b)) → R a b →
    TRel R (choiceLoopS g stop msg l a) (choiceLoopS g' stop msg' (l.map ρ) b)
  | [], _, _, _, h => .err rfl h
  | n :: ns, a, b, h, hab => by
    have h1 := h n (by simp) a b hab
    simp only [List.map_cons, choiceLoopS]
    generalize g n a = r at h1 ⊢
    generalize g' (ρ n) b = r' at h1 ⊢
    cases h1 with
    | ok h => exact .ok h
    | err he h2 =>
      dsimp only
      rw [hs _ _ he]
      split
      · exact .err he h2
      · exact choiceLoopS_reword hs (fun m hm => h m (by simp [hm])) h2
    | panic => exact .panic
    | fuel => exact .fuel

theorem seqLoopS_reword {g g' : Node → σ → SRes σ} {ρ : Node → Node} : ∀ {l : List Node} {a b : σ},
    (∀ n ∈ l, ∀ a b, R a b → TRel R (g n a) (g' (ρ n) b)) → R a b → TRel R (seqLoopS g l a) (seqLoopS g' (l.map ρ) b)
  | [], _, _, _, h => .ok h
  | n :: ns, a, b, h, hab => by
    have h1 := h n (by simp) a b hab
    simp only [List.map_cons, seqLoopS]
    generalize g n a = r at h1 ⊢
    generalize g' (ρ n) b = r' at h1 ⊢
    cases h1 with
    | ok h2 => exact seqLoopS_reword (fun m hm => h m (by simp [hm])) h2
    | err he h2 => exact .err he h2
    | panic => exact .panic
    | fuel => exact .fuel

theorem occurLoopS_reword {g g' : σ → SRes σ} {lo up : Nat} {msg msg' : String} (h : ∀ a b, R a b → TRel R (g a) (g' b)) :
    ∀ {k count : Nat} {a b : σ}, R a b → TRel R (occurLoopS g lo up msg k count a) (occurLoopS g' lo up msg' k count b)
  | 0, _, _, _, _ => .fuel
  | k + 1, count, a, b, hab => by
    have h1 := h a b hab
    simp only [occurLoopS]
    generalize g a = r at h1 ⊢
    generalize g' b = r' at h1 ⊢
    cases h1 with
    | ok h2 =>
      dsimp only
      split
      · split
        · exact .err rfl h2
        · exact .ok h2
      · exact occurLoopS_reword h h2
    | err he h2 =>
      dsimp only
      rw [Err.sort_mismatch he]
      split
      · split
        · exact .err rfl h2
        · exact .ok h2
      · exact .err he h2
    | panic => exact .panic
    | fuel => exact .fuel

end

/-! ## Scopes -/

theorem rewordL_eq : ∀ l : List Node, Node.rewordL f l = l.map (Node.reword f)
  | [] => rfl
  | n :: ns => by rw [Node.rewordL, rewordL_eq ns]; rfl

theorem rewordableL {l : List Node} (h : Node.RewordableL f rx ord l) : ∀ n ∈ l, n.Rewordable f rx ord := by
  induction l with
  | nil => simp
  | cons m ms ih =>
    intro n hn
    rcases List.mem_cons.mp hn with rfl | hn
    · exact h.1
    · exact ih h.2 n hn

theorem gmapFind_reword (s : String) : ∀ g : List (String × Node),
    gmapFind (g.map fun p => (p.1, p.2.reword f)) s = (gmapFind g s).map (Node.reword f)
  | [] => rfl
  | p :: g => by
    simp only [List.map_cons, gmapFind, gmapFind_reword s g]
    cases gmapFind g s with
    | some x => rfl
    | none =>
      simp only [Option.map_none]
      split <;> rfl

theorem gmapFind_rewordable {g : List (String × Node)} {s : String} {n : Node} (h : ∀ p ∈ g, p.2.Rewordable f rx ord)
    (hf : gmapFind g s = some n) : n.Rewordable f rx ord := by
  induction g with
  | nil => cases hf
  | cons p g ih =>
    simp only [gmapFind] at hf
    cases hr : gmapFind g s with
    | some x => rw [hr] at hf; cases hf; exact ih (fun q hq => h q (by simp [hq])) hr
    | none =>
      rw [hr] at hf
      dsimp only at hf
      split at hf
      · cases hf; exact h p (by simp)
      · cases hf

theorem depth_reword : ∀ c : Ctx, (c.reword f).depth = c.depth
  | .root _ => rfl
  | .frame _ _ _ => rfl

/-- Looking up a rule finds the same rule, with other texts. -/
theorem lookup_reword (env : Env) (c : Ctx) (s : String) (as : List Node) :
    (c.reword f).lookupRule (env.reprint f fmt) s (as.map (Node.reword f)) =
      match c.lookupRule env s as with
      | .ok a => .ok (a.1.reword f, a.2.reword f)
      | .error e => .error e := by
  have via : (((env.reprint f fmt).lookup s).bind fun rd => ((c.reword f).derive rd (as.map (Node.reword f))).bind fun c => .ok (rd.node, c)) =
      match ((env.lookup s).bind fun rd => (c.derive rd as).bind fun c => (.ok (rd.node, c) : Except Err (Node × Ctx))) with
      | .ok a => .ok (a.1.reword f, a.2.reword f)
      | .error e => .error e := by
    simp only [Env.reprint]
    cases env.lookup s with
    | error e => rfl
    | ok rd =>
      simp only [Except.bind, Ctx.derive, Ctx.incDepth, depth_reword, RuleDef.reword, List.length_map]
      by_cases h : rd.params.length = as.length
      · simp only [h, ne_eq, not_true_eq_false, if_false]
        by_cases hd : c.depth ≥ maxDepth
        · simp only [hd, if_true]
        · simp only [hd, if_false, Ctx.reword, List.zip_map_right]
          rfl
      · simp only [ne_eq, h, not_false_eq_true, if_true]
  cases c with
  | root d => exact via
  | frame g past d =>
    simp only [Ctx.lookupRule]
    simp only [Ctx.reword, gmapFind_reword]
    cases hg : gmapFind g s with
    | some m => rfl
    | none => exact via

theorem lookup_rewordable {env : Env} (he : env.Rewordable f ord) {c c' : Ctx} {s : String} {as : List Node} {n : Node}
    (hc : c.Rewordable f env.regexMatch ord) (ha : ∀ m ∈ as, m.Rewordable f env.regexMatch ord)
    (h : c.lookupRule env s as = .ok (n, c')) : n.Rewordable f env.regexMatch ord ∧ c'.Rewordable f env.regexMatch ord := by
  have via : ((env.lookup s).bind fun rd => (c.derive rd as).bind fun c => .ok (rd.node, c)) = .ok (n, c') →
      n.Rewordable f env.regexMatch ord ∧ c'.Rewordable f env.regexMatch ord := by
    intro h
    cases hl : env.lookup s with
    | error e => rw [hl] at h; cases h
    | ok rd =>
      rw [hl] at h
      cases hd : c.derive rd as with
      | error e => simp only [Except.bind, hd] at h; cases h
      | ok d =>
        simp only [Except.bind, hd] at h
        cases h
        simp only [Ctx.derive] at hd
        split at hd
        · cases hd
        · cases hi : c.incDepth with
          | error e => rw [hi] at hd; cases hd
          | ok d =>
            rw [hi] at hd
            cases hd
            exact ⟨he s rd hl, fun p hp => ha _ (List.of_mem_zip hp).2, hc⟩
  cases c with
  | root d => exact via h
  | frame g past d =>
    simp only [Ctx.lookupRule] at h
    cases hg : gmapFind g s with
    | some m => rw [hg] at h; cases h; exact ⟨gmapFind_rewordable hc.1 hg, hc.2⟩
    | none => rw [hg] at h; exact via h

/-! ## Single data items -/

/-- Both are the literal or none is. -/
theorem Reworded.lit {v w : Value} (hf : Function.Injective f) (h : Reworded f ord v w) (l : Literal) :
    v = l.toValue ↔ w = (l.reword f).toValue := by
  cases h <;> cases l <;> simp [Literal.toValue, Literal.reword]
  exact ⟨fun h => h ▸ rfl, fun h => hf h⟩

theorem Reworded.literal {v w : Value} (hf : Function.Injective f) (h : Reworded f ord v w) (l : Literal) (env : Env) :
    VRel (validateLiteral env l v) (validateLiteral (env.reprint f fmt) (l.reword f) w) := by
  have : v.beq l.toValue = w.beq (l.reword f).toValue := by
    rw [Bool.eq_iff_iff, Value.beq_iff, Value.beq_iff]
    exact h.lit hf l
  unfold validateLiteral
  rw [this]
  split
  · exact .ok trivial
  · exact .err rfl

theorem Reworded.prelude {v w : Value} (h : Reworded f ord v w) (p : PreludeType) :
    validatePreludeType p v = validatePreludeType p w := by
  cases h <;> cases p <;> rfl

theorem Reworded.sizeUint {v w : Value} (h : Reworded f ord v w) (z : Node × Node × Bool) :
    validateSizeUint z v = validateSizeUint z w := by
  cases h <;> rfl

theorem Reworded.sizeTstr {v w : Value} (hf : ∀ s, (f s).utf8ByteSize = s.utf8ByteSize) (h : Reworded f ord v w) (z : Node × Node × Bool) :
    validateSizeTstr z v = validateSizeTstr z w := by
  cases h with
  | text s => unfold validateSizeTstr; simp only [hf]
  | _ => rfl

theorem Reworded.sizeBstr {v w : Value} (h : Reworded f ord v w) (z : Node × Node × Bool) :
    validateSizeBstr z v = validateSizeBstr z w := by
  cases h <;> rfl

theorem Reworded.limits {v w : Value} (h : Reworded f ord v w) (k : Int) :
    validateLtUint k v = validateLtUint k w ∧ validateLtNint k v = validateLtNint k w ∧ validateLtInt k v = validateLtInt k w ∧
    validateLeUint k v = validateLeUint k w ∧ validateLeNint k v = validateLeNint k w ∧ validateLeInt k v = validateLeInt k w ∧
    validateGtUint k v = validateGtUint k w ∧ validateGtNint k v = validateGtNint k w ∧ validateGtInt k v = validateGtInt k w ∧
    validateGeUint k v = validateGeUint k w ∧ validateGeNint k v = validateGeNint k w ∧ validateGeInt k v = validateGeInt k w := by
  cases h <;> exact ⟨rfl, rfl, rfl, rfl, rfl, rfl, rfl, rfl, rfl, rfl, rfl, rfl⟩

theorem Reworded.range {v w : Value} (h : Reworded f ord v w) (a b : Literal) (shown shown' : String) (i : Bool) :
    VRel (rangeMatch shown a b v i) (rangeMatch shown' (a.reword f) (b.reword f) w i) := by
  cases a <;> cases b <;> cases h <;> simp only [rangeMatch, Literal.reword, sameKind] <;>
    first
    | exact .err rfl
    | (simp only [if_true]; exact .err rfl)
    | (simp only [Bool.false_eq_true, if_false]; exact .err rfl)
    | (split <;> first | exact .ok trivial | exact .err rfl)

theorem Reworded.regexp {v w : Value} (h : Reworded f ord v w) {env : Env} {p : String}
    (hf : ∀ s, env.regexMatch p (f s) = env.regexMatch p s) :
    validateControlRegexp env p v = validateControlRegexp (env.reprint f fmt) p w := by
  cases h with
  | text s =>
    simp only [validateControlRegexp]
    show _ = if env.regexMatch p (f s) then _ else _
    rw [hf]
  | _ => rfl

/-! ## Working copies -/

/-- The same data in other words, both as maps are kept. -/
structure WPair (f : String → String) (ord : Prop) (v w : Value) : Prop where
  words : Reworded f ord v w
  left : v.WF
  right : w.WF

/-- Working copies of arrays. -/
def WordArr (f : String → String) (ord : Prop) (a b : WArr) : Prop :=
  All2 (WPair f ord) a.array b.array ∧ All2 (All2 (WPair f ord)) a.snaps b.snaps

theorem arewind_word {a b : WArr} (h : WordArr f ord a b) : TRel (WordArr f ord) a.rewind b.rewind := by
  obtain ⟨h1, h2⟩ := h
  unfold WArr.rewind
  cases hs : a.snaps <;> cases ht : b.snaps <;> rw [hs, ht] at h2
  · exact .panic
  · cases h2
  · cases h2
  · cases h2 with
    | cons h3 h4 => exact .ok ⟨all2_append h3 h1, h4⟩

theorem acommit_word {a b : WArr} (h : WordArr f ord a b) : TRel (WordArr f ord) a.commit b.commit := by
  obtain ⟨h1, h2⟩ := h
  unfold WArr.commit
  cases hs : a.snaps <;> cases ht : b.snaps <;> rw [hs, ht] at h2
  · exact .panic
  · cases h2
  · cases h2
  · cases h2 with
    | cons h3 h4 => exact .ok ⟨h1, h4⟩

theorem apop_word {a b : WArr} (h : WordArr f ord a b) : TRel (WordArr f ord) a.popFront b.popFront := by
  obtain ⟨h1, h2⟩ := h
  unfold WArr.popFront
  cases ha : a.array <;> cases hb : b.array <;> rw [ha, hb] at h1
  · exact .panic
  · cases h1
  · cases h1
  · cases h1 with
    | cons h3 h4 =>
      cases hs : a.snaps <;> cases ht : b.snaps <;> rw [hs, ht] at h2
      · exact .ok ⟨h4, .nil⟩
      · cases h2
      · cases h2
      · cases h2 with
        | cons h5 h6 => exact .ok ⟨h4, .cons (all2_append h5 (.cons h3 .nil)) h6⟩

/-- The pairs of two maps: every key belongs to one pair only. -/
structure WordPool (f : String → String) (ord : Prop) (Z : Both → Prop) : Prop where
  key : ∀ z, Z z → WPair f ord z.1.1 z.2.1
  value : ∀ z, Z z → WPair f ord z.1.2 z.2.2
  left : ∀ z y, Z z → Z y → z.1.1 = y.1.1 → z = y
  right : ∀ z y, Z z → Z y → z.2.1 = y.2.1 → z = y
  order : ord → SameOrder Z

/-- Working copies of maps: the same pairs of the pool are still there. -/
structure WordMap (Z : Both → Prop) (a b : WMap) : Prop where
  there : ∃ Y : Both → Prop, (∀ z, Y z → Z z) ∧ (∀ p, p ∈ a.map ↔ ∃ z, Y z ∧ z.1 = p) ∧ (∀ p, p ∈ b.map ↔ ∃ z, Y z ∧ z.2 = p)
  snaps : All2 (TwinList Z) a.snaps b.snaps
  pw : VMap.PW a.map
  pw' : VMap.PW b.map

variable {Z : Both → Prop}

theorem WordMap.snapshot {a b : WMap} (h : WordMap Z a b) : WordMap Z a.snapshot b.snapshot :=
  ⟨h.there, .cons .nil h.snaps, h.pw, h.pw'⟩

theorem WordMap.empty {a b : WMap} (h : WordMap Z a b) : a.map.isEmpty = b.map.isEmpty := by
  obtain ⟨Y, -, h1, h2⟩ := h.there
  cases ha : a.map with
  | nil =>
    cases hb : b.map with
    | nil => rfl
    | cons p t =>
      obtain ⟨z, hz, -⟩ := (h2 p).mp (by rw [hb]; simp)
      exact absurd ((h1 z.1).mpr ⟨z, hz, rfl⟩) (by rw [ha]; simp)
  | cons p t =>
    cases hb : b.map with
    | cons q t => rfl
    | nil =>
      obtain ⟨z, hz, -⟩ := (h1 p).mp (by rw [ha]; simp)
      exact absurd ((h2 z.2).mpr ⟨z, hz, rfl⟩) (by rw [hb]; simp)

theorem extend_word (hZ : WordPool f ord Z) : ∀ {ys : List Both} {m m' : VMap}, (∀ y ∈ ys, Z y) → VMap.PW m → VMap.PW m' →
    (∃ Y : Both → Prop, (∀ z, Y z → Z z) ∧ (∀ p, p ∈ m ↔ ∃ z, Y z ∧ z.1 = p) ∧ (∀ p, p ∈ m' ↔ ∃ z, Y z ∧ z.2 = p)) →
    ∃ Y : Both → Prop, (∀ z, Y z → Z z) ∧ (∀ p, p ∈ VMap.extend m (ys.map Prod.fst) ↔ ∃ z, Y z ∧ z.1 = p) ∧
      (∀ p, p ∈ VMap.extend m' (ys.map Prod.snd) ↔ ∃ z, Y z ∧ z.2 = p)
  | [], _, _, _, _, _, h => h
  | y :: ys, m, m', hy, h1, h2, ⟨Y, h3, h4, h5⟩ => by
    have hy1 := hy y (by simp)
    refine extend_word hZ (m := VMap.insert m y.1.1 y.1.2) (m' := VMap.insert m' y.2.1 y.2.2) (fun z hz => hy z (by simp [hz]))
      (h1.insert _ _) (h2.insert _ _) ⟨fun z => z = y ∨ Y z, ?_, fun p => ?_, fun p => ?_⟩
    · rintro z (rfl | hz)
      · exact hy1
      · exact h3 z hz
    · rw [VMap.mem_insert h1]
      constructor
      · rintro (rfl | ⟨hne, hp⟩)
        · exact ⟨y, .inl rfl, rfl⟩
        · obtain ⟨z, hz, rfl⟩ := (h4 p).mp (by first | exact hp | exact hne)
          exact ⟨z, .inr hz, rfl⟩
      · rintro ⟨z, rfl | hz, rfl⟩
        · exact .inl rfl
        · by_cases he : z.1.1 = y.1.1
          · rw [hZ.left z y (h3 z hz) hy1 he]
            exact .inl rfl
          · have := (h4 z.1).mpr ⟨z, hz, rfl⟩
            exact .inr (by first | exact ⟨he, this⟩ | exact ⟨this, he⟩)
    · rw [VMap.mem_insert h2]
      constructor
      · rintro (rfl | ⟨hne, hp⟩)
        · exact ⟨y, .inl rfl, rfl⟩
        · obtain ⟨z, hz, rfl⟩ := (h5 p).mp (by first | exact hp | exact hne)
          exact ⟨z, .inr hz, rfl⟩
      · rintro ⟨z, rfl | hz, rfl⟩
        · exact .inl rfl
        · by_cases he : z.2.1 = y.2.1
          · rw [hZ.right z y (h3 z hz) hy1 he]
            exact .inl rfl
          · have := (h5 z.2).mpr ⟨z, hz, rfl⟩
            exact .inr (by first | exact ⟨he, this⟩ | exact ⟨this, he⟩)

theorem wrewind_word (hZ : WordPool f ord Z) {a b : WMap} (h : WordMap Z a b) : TRel (WordMap Z) a.rewind b.rewind := by
  obtain ⟨h1, h2, h5, h6⟩ := h
  unfold WMap.rewind
  cases hs : a.snaps <;> cases ht : b.snaps <;> rw [hs, ht] at h2
  · exact .panic
  · cases h2
  · cases h2
  · cases h2 with
    | cons h3 h4 =>
      obtain ⟨ys, h7, rfl, rfl⟩ := h3
      exact .ok ⟨extend_word hZ h7 h5 h6 h1, h4, h5.extend _, h6.extend _⟩

theorem wcommit_word {a b : WMap} (h : WordMap Z a b) : TRel (WordMap Z) a.commit b.commit := by
  obtain ⟨h1, h2, h5, h6⟩ := h
  unfold WMap.commit
  cases hs : a.snaps <;> cases ht : b.snaps <;> rw [hs, ht] at h2
  · exact .panic
  · cases h2
  · cases h2
  · cases h2 with
    | cons h3 h4 => exact .ok ⟨h1, h4, h5, h6⟩

theorem wremove_word (hZ : WordPool f ord Z) {a b : WMap} (h : WordMap Z a b) {z : Both} (hz : Z z) :
    TRel (WordMap Z) (a.remove z.1.1) (b.remove z.2.1) := by
  obtain ⟨⟨Y, h1, h2, h3⟩, hs, p1, p2⟩ := h
  unfold WMap.remove
  by_cases hy : Y z
  · have m1 : (z.1.1, z.1.2) ∈ a.map := (h2 z.1).mpr ⟨z, hy, rfl⟩
    have m2 : (z.2.1, z.2.2) ∈ b.map := (h3 z.2).mpr ⟨z, hy, rfl⟩
    rw [VMap.remove_some p1 m1, VMap.remove_some p2 m2]
    have there : ∃ Y : Both → Prop, (∀ z, Y z → Z z) ∧ (∀ p, p ∈ a.map.without z.1.1 ↔ ∃ z, Y z ∧ z.1 = p) ∧
        (∀ p, p ∈ b.map.without z.2.1 ↔ ∃ z, Y z ∧ z.2 = p) := by
      refine ⟨fun y => Y y ∧ y ≠ z, fun y hy => h1 y hy.1, fun p => ?_, fun p => ?_⟩
      · rw [VMap.mem_without]
        constructor
        · rintro ⟨hp, hne⟩
          obtain ⟨y, hy, rfl⟩ := (h2 p).mp hp
          exact ⟨y, ⟨hy, fun e => hne (e ▸ rfl)⟩, rfl⟩
        · rintro ⟨y, ⟨hy, hne⟩, rfl⟩
          exact ⟨(h2 y.1).mpr ⟨y, hy, rfl⟩, fun e => hne (hZ.left y z (h1 y hy) hz e)⟩
      · rw [VMap.mem_without]
        constructor
        · rintro ⟨hp, hne⟩
          obtain ⟨y, hy, rfl⟩ := (h3 p).mp hp
          exact ⟨y, ⟨hy, fun e => hne (e ▸ rfl)⟩, rfl⟩
        · rintro ⟨y, ⟨hy, hne⟩, rfl⟩
          exact ⟨(h3 y.2).mpr ⟨y, hy, rfl⟩, fun e => hne (hZ.right y z (h1 y hy) hz e)⟩
    dsimp only
    cases hs1 : a.snaps <;> cases ht : b.snaps <;> rw [hs1, ht] at hs
    · exact .ok ⟨there, .nil, p1.without _, p2.without _⟩
    · cases hs
    · cases hs
    · cases hs with
      | cons h8 h9 => exact .ok ⟨there, .cons (TwinList.snoc (z := z) hz h8) h9, p1.without _, p2.without _⟩
  · rw [VMap.remove_none p1 fun v hv => ?_, VMap.remove_none p2 fun v hv => ?_]
    · exact .panic
    · obtain ⟨y, hy', e⟩ := (h3 _).mp hv
      exact hy (hZ.right y z (h1 y hy') hz (by rw [e]) ▸ hy')
    · obtain ⟨y, hy', e⟩ := (h2 _).mp hv
      exact hy (hZ.left y z (h1 y hy') hz (by rw [e]) ▸ hy')

/-- With keys in the same order, the pairs come in the same order. -/
theorem WordMap.aligned (ho : SameOrder Z) {a b : WMap} (h : WordMap Z a b) : TwinList Z a.map b.map := by
  obtain ⟨⟨Y, h1, h2, h3⟩, -, p1, p2⟩ := h
  have list : ∀ m : VMap, (∀ p ∈ m, ∃ z, Y z ∧ z.1 = p) → ∃ zs : List Both, (∀ z ∈ zs, Y z) ∧ m = zs.map Prod.fst := by
    intro m hm
    induction m with
    | nil => exact ⟨[], by simp, rfl⟩
    | cons p m ih =>
      obtain ⟨zs, e1, e2⟩ := ih fun q hq => hm q (by simp [hq])
      obtain ⟨z, e3, e4⟩ := hm p (by simp)
      refine ⟨z :: zs, ?_, by rw [List.map_cons, e4, e2]⟩
      simp only [List.forall_mem_cons]
      exact ⟨e3, e1⟩
  obtain ⟨zs, e1, e2⟩ := list a.map fun p hp => (h2 p).mp hp
  refine ⟨zs, fun z hz => h1 z (e1 z hz), e2, ?_⟩
  have q2 : VMap.PW (zs.map Prod.snd) := by
    rw [e2] at p1
    unfold VMap.PW at p1 ⊢
    rw [List.pairwise_map] at p1 ⊢
    refine p1.imp_of_mem fun {x y} hx hy hxy => ?_
    rw [← ho x y (h1 x (e1 x hx)) (h1 y (e1 y hy))]
    exact hxy
  refine p2.ext q2 fun p => ?_
  rw [h3]
  constructor
  · rintro ⟨z, hz, rfl⟩
    have := (h2 z.1).mpr ⟨z, hz, rfl⟩
    rw [e2] at this
    obtain ⟨y, hy, e⟩ := List.mem_map.mp this
    have e5 := ho z y (h1 z hz) (h1 y (e1 y hy))
    rw [← e, Value.cmp_refl] at e5
    have e6 := (Value.cmp_eq _ _).mp e5.symm
    have m1 := (h3 z.2).mpr ⟨z, hz, rfl⟩
    have m2 := (h3 y.2).mpr ⟨y, e1 y hy, rfl⟩
    have e7 : z.2 = y.2 := Prod.ext e6 (p2.key_unique (k := z.2.1) m1 (by rw [e6]; exact m2))
    rw [e7]
    exact List.mem_map_of_mem hy
  · intro hp
    obtain ⟨y, hy, e⟩ := List.mem_map.mp hp
    exact ⟨y, e1 y hy, e⟩

/-! ## One step -/

mutual
/-- Where all texts stay, data stays. -/
theorem Reworded.refl (hf : ∀ s, f s = s) : ∀ v : Value, Reworded f ord v v
  | .null => .null
  | .bool b => .bool b
  | .integer i => .integer i
  | .float x => .float x
  | .bytes b => .bytes b
  | .text s => by
    have := Reworded.text (f := f) (ord := ord) s
    rwa [hf] at this
  | .array xs => .array (Reworded.reflL hf xs)
  | .map m => .map (Reworded.reflM hf m).1 (Reworded.reflM hf m).2 (.refl _) fun _ => rfl
theorem Reworded.reflL (hf : ∀ s, f s = s) : ∀ l : List Value, All2 (Reworded f ord) l l
  | [] => .nil
  | v :: vs => .cons (Reworded.refl hf v) (Reworded.reflL hf vs)
theorem Reworded.reflM (hf : ∀ s, f s = s) : ∀ m : List (Value × Value),
    All2 (Reworded f ord) (m.map Prod.fst) (m.map Prod.fst) ∧ All2 (Reworded f ord) (m.map Prod.snd) (m.map Prod.snd)
  | [] => ⟨.nil, .nil⟩
  | (k, v) :: m => ⟨.cons (Reworded.refl hf k) (Reworded.reflM hf m).1, .cons (Reworded.refl hf v) (Reworded.reflM hf m).2⟩
end

/-- The recursive functions `s'` do with other words what `s` does. -/
structure WordBlind (f : String → String) (rx : String → String → Bool) (ord : Prop) (s s' : Rec) : Prop where
  val : ∀ {v w n c}, WPair f ord v w → n.Rewordable f rx ord → c.Rewordable f rx ord →
    VRel (s.val v n c) (s'.val w (n.reword f) (c.reword f))
  chf : ∀ {v w name c} {args : List Node}, WPair f ord v w → (∀ n ∈ args, n.Rewordable f rx ord) → c.Rewordable f rx ord →
    VRel (s.chf name args v c) (s'.chf name (args.map (Node.reword f)) w (c.reword f))
  arr : ∀ {a b n c}, WordArr f ord a b → n.Rewordable f rx ord → c.Rewordable f rx ord →
    TRel (WordArr f ord) (s.arr n a c) (s'.arr (n.reword f) b (c.reword f))
  map : ∀ {Z a b n c}, WordPool f ord Z → WordMap Z a b → n.Rewordable f rx ord → c.Rewordable f rx ord →
    TRel (WordMap Z) (s.map n a c) (s'.map (n.reword f) b (c.reword f))
  mchf : ∀ {Z a b name c} {args : List Node}, WordPool f ord Z → WordMap Z a b → (∀ n ∈ args, n.Rewordable f rx ord) →
    c.Rewordable f rx ord → TRel (WordMap Z) (s.mchf name args a c) (s'.mchf name (args.map (Node.reword f)) b (c.reword f))
  deref : ∀ n c, RRel (fun l l' => l' = Literal.reword f l) (s.deref n c) (s'.deref (n.reword f) (c.reword f))
  chase : ∀ n c, RRel (fun m m' => m' = Node.reword f m) (s.chase n c) (s'.chase (n.reword f) (c.reword f))

theorem WPair.of_list {xs ys : List Value} (h : All2 (Reworded f ord) xs ys) (hx : ∀ v ∈ xs, v.WF) (hy : ∀ v ∈ ys, v.WF) :
    All2 (WPair f ord) xs ys := by
  induction h with
  | nil => exact .nil
  | cons h _ ih =>
    simp only [List.forall_mem_cons] at hx hy
    exact .cons ⟨h, hx.1, hy.1⟩ (ih hx.2 hy.2)

theorem pairwise_cases {α : Type} {R : α → α → Prop} {l : List α} (h : l.Pairwise R) {x y : α} (hx : x ∈ l) (hy : y ∈ l) :
    x = y ∨ R x y ∨ R y x := by
  induction h with
  | nil => cases hx
  | cons h _ ih =>
    rcases List.mem_cons.mp hx with e | hx' <;> rcases List.mem_cons.mp hy with e' | hy'
    · exact .inl (e.trans e'.symm)
    · exact .inr (.inl (e ▸ h y hy'))
    · exact .inr (.inr (e' ▸ h x hx'))
    · exact ih hx' hy'

/-- The pairs of a map and of the map in other words. -/
theorem wordPool_of {m l m' : VMap} (hk : All2 (Reworded f ord) (m.map Prod.fst) (l.map Prod.fst))
    (hv : All2 (Reworded f ord) (m.map Prod.snd) (l.map Prod.snd)) (hp : m'.Perm l) (ho : ord → m' = l)
    (hm : (Value.map m).WF) (hm' : (Value.map m').WF) :
    WordPool f ord (fun z => z ∈ m.zip l) ∧ WordMap (fun z => z ∈ m.zip l) (WMap.new m) (WMap.new m') := by
  have p1 := (VMap.sorted_iff m).mp hm.1
  have p2 := (VMap.sorted_iff m').mp hm'.1
  have w1 := (Value.WFMap_iff m).mp hm.2
  have w2 : ∀ p ∈ l, p.1.WF ∧ p.2.WF := fun p h => (Value.WFMap_iff m').mp hm'.2 p (hp.mem_iff.mpr h)
  have hlen : m.length = l.length := by simpa using hk.length
  have f1 : (m.zip l).map Prod.fst = m := List.map_fst_zip (by omega)
  have f2 : (m.zip l).map Prod.snd = l := List.map_snd_zip (by omega)
  have d1 : (m.zip l).Pairwise fun z y => Value.cmp z.1.1 y.1.1 = .lt := by
    have := p1
    rw [← f1] at this
    unfold VMap.PW at this
    rwa [List.pairwise_map] at this
  have d2 : (m.zip l).Pairwise fun z y => z.2.1 ≠ y.2.1 := by
    have h0 : m'.Pairwise fun p q => p.1 ≠ q.1 := by
      refine List.Pairwise.imp (fun {p q} h e => ?_) p2
      rw [e, Value.cmp_refl] at h
      cases h
    have h1 : l.Pairwise fun p q => p.1 ≠ q.1 := (hp.pairwise_iff fun {a b} h => h.symm).mp h0
    rw [← f2, List.pairwise_map] at h1
    exact h1
  have rel : ∀ z ∈ m.zip l, Reworded f ord z.1.1 z.2.1 ∧ Reworded f ord z.1.2 z.2.2 := by
    clear hp ho hm' p1 p2 w1 w2 hlen f1 f2 d1 d2 hm
    induction m generalizing l with
    | nil => simp
    | cons p m ih =>
      cases l with
      | nil => simp
      | cons q l =>
        cases hk with
        | cons a1 a2 =>
          cases hv with
          | cons b1 b2 =>
            simp only [List.zip_cons_cons, List.forall_mem_cons]
            exact ⟨⟨a1, b1⟩, ih a2 b2⟩
  refine ⟨⟨fun z hz => ⟨(rel z hz).1, (w1 _ (List.of_mem_zip hz).1).1, (w2 _ (List.of_mem_zip hz).2).1⟩,
    fun z hz => ⟨(rel z hz).2, (w1 _ (List.of_mem_zip hz).1).2, (w2 _ (List.of_mem_zip hz).2).2⟩, ?_, ?_, ?_⟩, ?_⟩
  · intro z y hz hy e
    rcases pairwise_cases d1 hz hy with h | h | h
    · exact h
    · rw [e, Value.cmp_refl] at h; cases h
    · rw [e, Value.cmp_refl] at h; cases h
  · intro z y hz hy e
    rcases pairwise_cases d2 hz hy with h | h | h
    · exact h
    · exact absurd e h
    · exact absurd e.symm h
  · intro o z y hz hy
    have d3 : (m.zip l).Pairwise fun z y => Value.cmp z.2.1 y.2.1 = .lt := by
      have := p2
      rw [ho o, ← f2] at this
      unfold VMap.PW at this
      rwa [List.pairwise_map] at this
    rcases pairwise_cases (d1.and d3) hz hy with h | h | h
    · rw [h, Value.cmp_refl, Value.cmp_refl]
    · rw [h.1, h.2]
    · rw [Value.cmp_gt.mpr h.1, Value.cmp_gt.mpr h.2]
  · refine ⟨⟨fun z => z ∈ m.zip l, fun z h => h, fun p => ?_, fun p => ?_⟩, .nil, p1, p2⟩
    · show p ∈ m ↔ _
      rw [← f1, List.mem_map, f1]
    · show p ∈ m' ↔ _
      rw [hp.mem_iff, ← f2, List.mem_map, f2]

theorem normalize_word (env : Env) (n : Node) :
    RRel Eq (normalizeSizeRange env n) (normalizeSizeRange (env.reprint f fmt) (n.reword f)) := by
  cases n with
  | literal l =>
    cases l with
    | int i => exact RRel.same (fun _ => rfl) _
    | _ => exact .err rfl
  | range a b i =>
    simp only [normalizeSizeRange, Node.reword]
    cases a with
    | literal l =>
      cases l with
      | int x =>
        cases b with
        | literal l' =>
          cases l' with
          | int y => exact RRel.same (fun _ => rfl) _
          | _ => exact .err rfl
        | _ => exact .err rfl
      | _ => exact .err rfl
    | _ => exact .err rfl
  | _ => exact .err rfl

theorem limitOf_word (env : Env) (op : String) (n : Node) :
    RRel Eq (limitOf env op n) (limitOf (env.reprint f fmt) op (n.reword f)) := by
  cases n with
  | literal l =>
    cases l with
    | int i => exact .ok rfl
    | _ => exact .err rfl
  | _ => exact .err rfl

section Step
variable {env : Env} {s s' : Rec} (hf : Function.Injective f) (h : WordBlind f env.regexMatch ord s s') (he : env.Rewordable f ord)
include hf h he

omit hf he in
theorem control_word {v w : Value} (ht : WPair f ord v w) {op : CtlOp} {t a : Node} {c : Ctx}
    (hn : (Node.ctl op t a).Rewordable f env.regexMatch ord) :
    VRel (validateControl env s op t a v c) (validateControl (env.reprint f fmt) s' op (t.reword f) (a.reword f) w (c.reword f)) := by
  have h2 := ht.words
  cases op <;> simp only [validateControl]
  · unfold validateControlSize
    refine (h.chase a c).bind fun sn sn' e1 => ?_
    subst e1
    refine (normalize_word env sn).bind fun sz sz' e2 => ?_
    subst e2
    refine (h.chase t c).bind fun tn tn' e3 => ?_
    subst e3
    cases tn with
    | prelude p =>
      cases p with
      | uint => exact VRel.of_eq (h2.sizeUint sz)
      | tstr => exact VRel.of_eq (h2.sizeTstr hn sz)
      | bstr => exact VRel.of_eq (h2.sizeBstr sz)
      | _ => exact .err rfl
    | _ => exact .err rfl
  all_goals
    first | unfold validateControlLt | unfold validateControlLe | unfold validateControlGt | unfold validateControlGe
    refine (h.chase a c).bind fun an an' e1 => ?_
    subst e1
    refine (limitOf_word env _ an).bind fun i i' e2 => ?_
    subst e2
    refine (h.chase t c).bind fun tn tn' e3 => ?_
    subst e3
    have h3 := h2.limits i
    cases tn with
    | prelude p =>
      cases p <;> simp only [Node.reword] <;> first | exact .err rfl | exact VRel.of_eq (by simp only [h3])
    | _ => exact .err rfl

omit hf he in
theorem choiceify_word {v w : Value} (ht : WPair f ord v w) {c : Ctx} (hc : c.Rewordable f env.regexMatch ord) {l : List Node}
    (hl : ∀ n ∈ l, n.Rewordable f env.regexMatch ord) :
    VRel (validateChoiceifyMembers s l v c) (validateChoiceifyMembers s' (l.map (Node.reword f)) w (c.reword f)) := by
  unfold validateChoiceifyMembers
  refine choiceLoop_reword fun n hn => ?_
  have hn := hl n hn
  cases n with
  | keyValue k t cut => exact h.val ht hn.2.2 hc
  | rule name args =>
    simp only [Node.reword, rewordL_eq]
    exact h.chf ht (rewordableL hn) hc
  | _ => exact h.val ht hn hc

omit hf in
theorem chf_word {v w : Value} (ht : WPair f ord v w) {c : Ctx} (hc : c.Rewordable f env.regexMatch ord) {name : String}
    {args : List Node} (ha : ∀ n ∈ args, n.Rewordable f env.regexMatch ord) :
    VRel (chfBody env s name args v c) (chfBody (env.reprint f fmt) s' name (args.map (Node.reword f)) w (c.reword f)) := by
  unfold chfBody
  rw [lookup_reword]
  cases hl : c.lookupRule env name args with
  | error e => exact .err rfl
  | ok q =>
    obtain ⟨n, c'⟩ := q
    obtain ⟨h1, h2⟩ := lookup_rewordable he hc ha hl
    simp only [Res.ofExcept, Res.bind]
    cases n with
    | group l =>
      simp only [Node.reword, rewordL_eq]
      exact choiceify_word h ht h2 (rewordableL h1)
    | rule name' args' =>
      simp only [Node.reword, rewordL_eq]
      exact h.chf ht (rewordableL h1) h2
    | _ => exact .err rfl

theorem val_word {v w : Value} (ht : WPair f ord v w) {n : Node} (hn : n.Rewordable f env.regexMatch ord) {c : Ctx}
    (hc : c.Rewordable f env.regexMatch ord) :
    VRel (valBody env s v n c) (valBody (env.reprint f fmt) s' w (n.reword f) (c.reword f)) := by
  cases n with
  | literal l => exact ht.words.literal hf l env
  | prelude p => exact VRel.of_eq (ht.words.prelude p)
  | choice l =>
    simp only [Node.reword, rewordL_eq, valBody, validateChoice]
    exact choiceLoop_reword fun n hm => h.val ht (rewordableL hn n hm) hc
  | map l =>
    simp only [Node.reword, rewordL_eq, valBody]
    obtain ⟨hw, wl, wr⟩ := ht
    cases hw with
    | @map m k m' h1 h2 h3 h4 =>
      obtain ⟨hZ, hT⟩ := wordPool_of h1 h2 h3 h4 wl wr
      have := seqLoopS_reword (R := WordMap fun z => z ∈ m.zip k) (g := fun mem w => s.map mem w c)
        (g' := fun mem w => s'.map mem w (c.reword f)) (ρ := Node.reword f)
        (l := l) (a := WMap.new m) (b := WMap.new m') (fun n hm a b hab => h.map hZ hab (rewordableL hn n hm) hc) hT
      simp only [validateMap]
      generalize seqLoopS (fun mem w => s.map mem w c) l (WMap.new m) = r at this ⊢
      generalize seqLoopS (fun mem w => s'.map mem w (c.reword f)) (l.map (Node.reword f)) (WMap.new m') = r' at this ⊢
      cases this with
      | ok hab =>
        dsimp only
        rw [hab.empty]
        split
        · exact .ok trivial
        · exact .err rfl
      | err he _ => exact .err (Err.sort_erase he)
      | panic => exact .panic
      | fuel => exact .fuel
    | _ => exact .err rfl
  | array l =>
    simp only [Node.reword, rewordL_eq, valBody]
    obtain ⟨hw, wl, wr⟩ := ht
    cases hw with
    | @array xs ys h1 =>
      have h2 := WPair.of_list h1 ((Value.WFArr_iff xs).mp wl) ((Value.WFArr_iff ys).mp wr)
      have := seqLoopS_reword (R := WordArr f ord) (g := fun mem w => s.arr mem w c)
        (g' := fun mem w => s'.arr mem w (c.reword f)) (ρ := Node.reword f)
        (l := l) (a := WArr.new xs) (b := WArr.new ys) (fun n hm a b hab => h.arr hab (rewordableL hn n hm) hc) ⟨h2, .nil⟩
      simp only [validateArray]
      generalize seqLoopS (fun mem w => s.arr mem w c) l (WArr.new xs) = r at this ⊢
      generalize seqLoopS (fun mem w => s'.arr mem w (c.reword f)) (l.map (Node.reword f)) (WArr.new ys) = r' at this ⊢
      cases this with
      | @ok a b hab =>
        obtain ⟨h3, -⟩ := hab
        dsimp only
        cases e1 : a.array <;> cases e2 : b.array <;> rw [e1, e2] at h3
        · exact .ok trivial
        · cases h3
        · cases h3
        · exact .err rfl
      | err he _ => exact .err he
      | panic => exact .panic
      | fuel => exact .fuel
    | _ => exact .err rfl
  | rule name args =>
    simp only [Node.reword, rewordL_eq, valBody, validateRule]
    rw [lookup_reword]
    cases hl : c.lookupRule env name args with
    | error e => exact .err rfl
    | ok q =>
      obtain ⟨n, c'⟩ := q
      obtain ⟨h1, h2⟩ := lookup_rewordable he hc (rewordableL hn) hl
      exact h.val ht h1 h2
  | group l =>
    simp only [Node.reword, rewordL_eq, valBody, validateStandaloneGroup]
    match l, hn with
    | [], _ => exact .err rfl
    | [m], hn => exact h.val ht hn.1 hc
    | _ :: _ :: _, _ => exact .err rfl
  | keyValue => exact .err rfl
  | occur => exact .err rfl
  | unwrap => exact .err rfl
  | range a b i =>
    simp only [Node.reword, valBody, validateRange]
    refine (h.deref a c).bind fun x x' e1 => (h.deref b c).bind fun y y' e2 => ?_
    subst e1 e2
    exact ht.words.range x y _ _ i
  | ctl op t a => exact control_word h ht hn
  | ctlRegexp p => exact VRel.of_eq (ht.words.regexp hn)
  | ctlCbor n =>
    simp only [Node.reword, valBody]
    obtain ⟨hw, wl, wr⟩ := ht
    cases hw with
    | bytes b =>
      simp only [validateControlCbor, Env.reprint]
      cases env.cborDecode b with
      | error msg => exact .err rfl
      | ok d =>
        dsimp only
        cases hd : d.toValue with
        | error e => exact .err rfl
        | ok x => exact h.val ⟨Reworded.refl hn.1 x, Cbor.toValue_WF _ _ hd, Cbor.toValue_WF _ _ hd⟩ hn.2 hc
    | _ => exact .err rfl
  | choiceify name args =>
    simp only [Node.reword, rewordL_eq, valBody]
    exact h.chf ht (rewordableL hn) hc
  | choiceifyInline l =>
    simp only [Node.reword, rewordL_eq, valBody]
    exact choiceify_word h ht hc (rewordableL hn)

omit hf he in
theorem arrayValue_word {a b : WArr} (ht : WordArr f ord a b) {n : Node} (hn : n.Rewordable f env.regexMatch ord) {c : Ctx}
    (hc : c.Rewordable f env.regexMatch ord) :
    TRel (WordArr f ord) (validateArrayValue env s n a c) (validateArrayValue (env.reprint f fmt) s' (n.reword f) b (c.reword f)) := by
  have h0 := ht
  obtain ⟨h1, h2⟩ := ht
  unfold validateArrayValue
  cases ea : a.array with
  | nil =>
    cases eb : b.array with
    | nil => exact .err rfl h0
    | cons => rw [ea, eb] at h1; cases h1
  | cons v vs =>
    cases eb : b.array with
    | nil => rw [ea, eb] at h1; cases h1
    | cons w ws =>
      rw [ea, eb] at h1
      cases h1 with
      | cons h3 h4 =>
        dsimp only
        have := h.val h3 hn hc
        generalize s.val v n c = r at this ⊢
        generalize s'.val w (n.reword f) (c.reword f) = r' at this ⊢
        cases this with
        | ok _ => exact apop_word h0
        | err he => exact .err he h0
        | panic => exact .panic
        | fuel => exact .fuel

omit hf in
theorem arr_word {a b : WArr} (ht : WordArr f ord a b) {n : Node} (hn : n.Rewordable f env.regexMatch ord) {c : Ctx}
    (hc : c.Rewordable f env.regexMatch ord) :
    TRel (WordArr f ord) (arrBody env s n a c) (arrBody (env.reprint f fmt) s' (n.reword f) b (c.reword f)) := by
  cases n with
  | occur o m => exact occurLoopS_reword (fun a b hab => h.arr hab (n := m) hn hc) ht
  | keyValue k t cut => exact arrayValue_word h ht hn.2.2 hc
  | rule name args =>
    simp only [Node.reword, rewordL_eq, arrBody]
    rw [lookup_reword]
    cases hl : c.lookupRule env name args with
    | error e => exact .err rfl ht
    | ok q =>
      obtain ⟨n, c'⟩ := q
      obtain ⟨h1, h2⟩ := lookup_rewordable he hc (rewordableL hn) hl
      exact h.arr ht h1 h2
  | unwrap name args =>
    simp only [Node.reword, rewordL_eq, arrBody]
    rw [lookup_reword]
    cases hl : c.lookupRule env name args with
    | error e => exact .err rfl ht
    | ok q =>
      obtain ⟨n, c'⟩ := q
      obtain ⟨h1, h2⟩ := lookup_rewordable he hc (rewordableL hn) hl
      dsimp only
      unfold validateArrayUnwrap
      cases n with
      | array l =>
        simp only [Node.reword, rewordL_eq]
        exact seqLoopS_reword (fun n hm a b hab => h.arr hab (rewordableL h1 n hm) h2) ht
      | _ => exact .err rfl ht
  | choice l =>
    simp only [Node.reword, rewordL_eq, arrBody]
    exact choiceLoopS_reword (fun _ _ => Err.sort_fatal) (fun n hm a b hab => h.arr hab (rewordableL hn n hm) hc) ht
  | group l =>
    simp only [Node.reword, rewordL_eq, arrBody, validateArrayGroup]
    have := seqLoopS_reword (R := WordArr f ord) (g := fun mem w => s.arr mem w c) (g' := fun mem w => s'.arr mem w (c.reword f))
      (ρ := Node.reword f) (l := l) (a := a.snapshot) (b := b.snapshot)
      (fun n hm a b hab => h.arr hab (rewordableL hn n hm) hc) ⟨ht.1, .cons .nil ht.2⟩
    generalize seqLoopS (fun mem w => s.arr mem w c) l a.snapshot = r at this ⊢
    generalize seqLoopS (fun mem w => s'.arr mem w (c.reword f)) (l.map (Node.reword f)) b.snapshot = r' at this ⊢
    cases this with
    | ok hab => exact acommit_word hab
    | @err e e' a' b' he hab =>
      have := arewind_word hab
      dsimp only
      generalize a'.rewind = r at this ⊢
      generalize b'.rewind = r' at this ⊢
      cases this with
      | ok h => exact .err he h
      | err e h => exact .err e h
      | panic => exact .panic
      | fuel => exact .fuel
    | panic => exact .panic
    | fuel => exact .fuel
  | _ => exact arrayValue_word h ht hn hc

omit he in
theorem mapKey_word {Z : Both → Prop} (hZ : WordPool f ord Z) {a b : WMap} (ht : WordMap Z a b) {n : Node}
    (hk : ord ∨ ∃ l, n = .literal l) (hn : n.Rewordable f env.regexMatch ord) {c : Ctx} (hc : c.Rewordable f env.regexMatch ord) :
    RRel (fun p q => ∃ z, Z z ∧ z.1 = p ∧ z.2 = q) (validateMapKey env s n a c)
      (validateMapKey (env.reprint f fmt) s' (n.reword f) b (c.reword f)) := by
  have lit : ∀ l : Literal, RRel (fun p q => ∃ z, Z z ∧ z.1 = p ∧ z.2 = q) (mapSearchLiteral env l a)
      (mapSearchLiteral (env.reprint f fmt) (l.reword f) b) := by
    intro l
    obtain ⟨⟨Y, h1, h2, h3⟩, -, p1, p2⟩ := ht
    unfold mapSearchLiteral
    by_cases hy : ∃ y, Y y ∧ y.1.1 = l.toValue
    · obtain ⟨y, hy, e⟩ := hy
      have e' := ((hZ.key y (h1 y hy)).words.lit hf l).mp e
      have g1 : VMap.get a.map l.toValue = some y.1.2 := (VMap.get_some p1).mpr ((h2 _).mpr ⟨y, hy, by rw [← e]⟩)
      have g2 : VMap.get b.map (l.reword f).toValue = some y.2.2 := (VMap.get_some p2).mpr ((h3 _).mpr ⟨y, hy, by rw [← e']⟩)
      rw [g1, g2]
      exact .ok ⟨y, h1 y hy, by rw [← e], by rw [← e']⟩
    · have g1 : VMap.get a.map l.toValue = none := (VMap.get_none p1).mpr fun v hv => by
        obtain ⟨y, hm, e⟩ := (h2 _).mp hv
        exact hy ⟨y, hm, by rw [e]⟩
      have g2 : VMap.get b.map (l.reword f).toValue = none := (VMap.get_none p2).mpr fun v hv => by
        obtain ⟨y, hm, e⟩ := (h3 _).mp hv
        exact hy ⟨y, hm, ((hZ.key y (h1 y hm)).words.lit hf l).mpr (by rw [e])⟩
      rw [g1, g2]
      exact .err rfl
  have search : ∀ (g g' : Value → Res Unit) (msg msg' : String), (∀ z, Z z → VRel (g z.1.1) (g' z.2.1)) →
      ∀ zs : List Both, (∀ z ∈ zs, Z z) → RRel (fun p q => ∃ z, Z z ∧ z.1 = p ∧ z.2 = q)
        (mapSearchLoop g msg (zs.map Prod.fst)) (mapSearchLoop g' msg' (zs.map Prod.snd)) := by
    intro g g' msg msg' hg zs
    induction zs with
    | nil => exact fun _ => .err rfl
    | cons z zs ih =>
      intro hz
      have h1 := hg z (hz z (by simp))
      have h2 := ih fun y hy => hz y (by simp [hy])
      simp only [List.map_cons, mapSearchLoop]
      generalize g z.1.1 = r at h1 ⊢
      generalize g' z.2.1 = r' at h1 ⊢
      cases h1 with
      | ok _ => exact .ok ⟨z, hz z (by simp), rfl, rfl⟩
      | err _ => exact h2
      | panic => exact .panic
      | fuel => exact .fuel
  have other : ord → RRel (fun p q => ∃ z, Z z ∧ z.1 = p ∧ z.2 = q) (mapSearch env s n a c)
      (mapSearch (env.reprint f fmt) s' (n.reword f) b (c.reword f)) := by
    intro o
    obtain ⟨zs, h1, h2, h3⟩ := ht.aligned (hZ.order o)
    unfold mapSearch
    rw [h2, h3]
    exact search _ _ _ _ (fun z hz => h.val (hZ.key z hz) hn hc) zs h1
  cases n with
  | literal l => exact lit l
  | _ =>
    rcases hk with o | ⟨l, e⟩
    · exact other o
    · cases e

theorem map_word {Z : Both → Prop} (hZ : WordPool f ord Z) {a b : WMap} (ht : WordMap Z a b) {n : Node}
    (hn : n.Rewordable f env.regexMatch ord) {c : Ctx} (hc : c.Rewordable f env.regexMatch ord) :
    TRel (WordMap Z) (mapBody env s n a c) (mapBody (env.reprint f fmt) s' (n.reword f) b (c.reword f)) := by
  have stop : ∀ e e' : Err, e.sort = e'.sort → (!e.isMismatch) = !e'.isMismatch := fun e e' h => by rw [Err.sort_mismatch h]
  have alts : ∀ l : List Node, Node.RewordableL f env.regexMatch ord l →
      TRel (WordMap Z) (validateMapChoice s l a c) (validateMapChoice s' (l.map (Node.reword f)) b (c.reword f)) := fun l hl =>
    choiceLoopS_reword stop (fun n hm a b hab => h.map hZ hab (rewordableL hl n hm) hc) ht
  cases n with
  | occur o m => exact occurLoopS_reword (fun a b hab => h.map hZ hab (n := m) hn hc) ht
  | keyValue k t cut =>
    simp only [Node.reword, mapBody, validateMapKeyvalue]
    have := mapKey_word (fmt := fmt) hf h hZ ht hn.1 hn.2.1 hc
    generalize validateMapKey env s k a c = r at this ⊢
    generalize validateMapKey (env.reprint f fmt) s' (k.reword f) b (c.reword f) = r' at this ⊢
    cases this with
    | ok hz =>
      obtain ⟨z, hz, rfl, rfl⟩ := hz
      have := h.val (hZ.value z hz) hn.2.2 hc
      dsimp only
      generalize s.val z.1.2 t c = r at this ⊢
      generalize s'.val z.2.2 (t.reword f) (c.reword f) = r' at this ⊢
      cases this with
      | ok _ => exact wremove_word hZ ht hz
      | @err e e' he =>
        cases cut with
        | false => cases e <;> cases e' <;> exact .err he ht
        | true =>
          cases e <;> cases e' <;> first
            | (simp [Err.sort] at he; done)
            | exact .err rfl ht
            | exact .err he ht
      | panic => exact .panic
      | fuel => exact .fuel
    | err he => exact .err he ht
    | panic => exact .panic
    | fuel => exact .fuel
  | rule name args =>
    simp only [Node.reword, rewordL_eq, mapBody]
    rw [lookup_reword]
    cases hl : c.lookupRule env name args with
    | error e => exact .err rfl ht
    | ok q =>
      obtain ⟨n, c'⟩ := q
      obtain ⟨h1, h2⟩ := lookup_rewordable he hc (rewordableL hn) hl
      exact h.map hZ ht h1 h2
  | unwrap name args =>
    simp only [Node.reword, rewordL_eq, mapBody]
    rw [lookup_reword]
    cases hl : c.lookupRule env name args with
    | error e => exact .err rfl ht
    | ok q =>
      obtain ⟨n, c'⟩ := q
      obtain ⟨h1, h2⟩ := lookup_rewordable he hc (rewordableL hn) hl
      dsimp only
      unfold validateMapUnwrap
      cases n with
      | map l =>
        simp only [Node.reword, rewordL_eq]
        exact seqLoopS_reword (fun n hm a b hab => h.map hZ hab (rewordableL h1 n hm) h2) ht
      | _ => exact .err rfl ht
  | choice l =>
    simp only [Node.reword, rewordL_eq, mapBody]
    exact alts l hn
  | choiceifyInline l =>
    simp only [Node.reword, rewordL_eq, mapBody]
    exact alts l hn
  | choiceify name args =>
    simp only [Node.reword, rewordL_eq, mapBody]
    exact h.mchf hZ ht (rewordableL hn) hc
  | group l =>
    simp only [Node.reword, rewordL_eq, mapBody, validateMapGroup]
    have := seqLoopS_reword (R := WordMap Z) (g := fun mem w => s.map mem w c) (g' := fun mem w => s'.map mem w (c.reword f))
      (ρ := Node.reword f) (l := l) (a := a.snapshot) (b := b.snapshot)
      (fun n hm a b hab => h.map hZ hab (rewordableL hn n hm) hc) ht.snapshot
    generalize seqLoopS (fun mem w => s.map mem w c) l a.snapshot = r at this ⊢
    generalize seqLoopS (fun mem w => s'.map mem w (c.reword f)) (l.map (Node.reword f)) b.snapshot = r' at this ⊢
    cases this with
    | ok hab => exact wcommit_word hab
    | @err e e' a' b' he hab =>
      have := wrewind_word hZ hab
      dsimp only
      generalize a'.rewind = r at this ⊢
      generalize b'.rewind = r' at this ⊢
      cases this with
      | ok h => exact .err (Err.sort_erase he) h
      | err e h => exact .err e h
      | panic => exact .panic
      | fuel => exact .fuel
    | panic => exact .panic
    | fuel => exact .fuel
  | _ => exact .err rfl ht

omit hf in
theorem mchf_word {Z : Both → Prop} (hZ : WordPool f ord Z) {a b : WMap} (ht : WordMap Z a b) {name : String} {args : List Node}
    (ha : ∀ n ∈ args, n.Rewordable f env.regexMatch ord) {c : Ctx} (hc : c.Rewordable f env.regexMatch ord) :
    TRel (WordMap Z) (mchfBody env s name args a c) (mchfBody (env.reprint f fmt) s' name (args.map (Node.reword f)) b (c.reword f)) := by
  have stop : ∀ e e' : Err, e.sort = e'.sort → (!e.isMismatch) = !e'.isMismatch := fun e e' h => by rw [Err.sort_mismatch h]
  unfold mchfBody
  rw [lookup_reword]
  cases hl : c.lookupRule env name args with
  | error e => exact .err rfl ht
  | ok q =>
    obtain ⟨n, c'⟩ := q
    obtain ⟨h1, h2⟩ := lookup_rewordable he hc ha hl
    dsimp only
    cases n with
    | group l =>
      simp only [Node.reword, rewordL_eq, validateMapChoiceifyMembers]
      refine choiceLoopS_reword stop (fun n hm a b hab => ?_) ht
      have hn := rewordableL h1 n hm
      cases n with
      | keyValue k t cut => exact h.map hZ hab hn.2.2 h2
      | rule name' args' =>
        simp only [Node.reword, rewordL_eq, mapChoiceifyItem]
        exact h.mchf hZ hab (rewordableL hn) h2
      | _ => exact h.map hZ hab hn h2
    | rule name' args' =>
      simp only [Node.reword, rewordL_eq]
      exact h.mchf hZ ht (rewordableL h1) h2
    | _ => exact .err rfl ht

omit hf he in
theorem deref_word (n : Node) (c : Ctx) :
    RRel (fun l l' => l' = Literal.reword f l) (derefBody env s n c) (derefBody (env.reprint f fmt) s' (n.reword f) (c.reword f)) := by
  cases n with
  | literal l => exact .ok rfl
  | rule name args =>
    simp only [Node.reword, rewordL_eq, derefBody]
    rw [lookup_reword]
    cases c.lookupRule env name args with
    | error e => exact .err rfl
    | ok q => exact h.deref _ _
  | _ => exact .err rfl

omit hf he in
theorem chase_word (n : Node) (c : Ctx) :
    RRel (fun m m' => m' = Node.reword f m) (chaseBody env s n c) (chaseBody (env.reprint f fmt) s' (n.reword f) (c.reword f)) := by
  cases n with
  | rule name args =>
    simp only [Node.reword, rewordL_eq, chaseBody]
    rw [lookup_reword]
    cases c.lookupRule env name args with
    | error e => exact .err rfl
    | ok q => exact h.chase _ _
  | _ => exact .ok rfl

theorem step_word : WordBlind f env.regexMatch ord (step env s) (step (env.reprint f fmt) s') where
  val ht hn hc := val_word hf h he ht hn hc
  chf ht ha hc := chf_word h he ht hc ha
  arr ht hn hc := arr_word h he ht hn hc
  map hZ ht hn hc := map_word hf h he hZ ht hn hc
  mchf hZ ht ha hc := mchf_word h he hZ ht ha hc
  deref n c := deref_word h n c
  chase n c := chase_word h n c

end Step

theorem fns_word {env : Env} (hf : Function.Injective f) (he : env.Rewordable f ord) :
    ∀ k, WordBlind f env.regexMatch ord (fns env k) (fns (env.reprint f fmt) k)
  | 0 => ⟨fun _ _ _ => .fuel, fun _ _ _ => .fuel, fun _ _ _ => .fuel, fun _ _ _ _ => .fuel, fun _ _ _ _ => .fuel,
      fun _ _ => .fuel, fun _ _ => .fuel⟩
  | k + 1 => step_word hf (fns_word hf he k) he

/-! ## All texts stay -/

mutual
theorem reword_id : ∀ n : Node, n.reword (fun s => s) = n
  | .literal l => by cases l <;> rfl
  | .prelude _ => rfl
  | .rule _ l => by rw [Node.reword, rewordL_id l]
  | .choice l => by rw [Node.reword, rewordL_id l]
  | .map l => by rw [Node.reword, rewordL_id l]
  | .array l => by rw [Node.reword, rewordL_id l]
  | .group l => by rw [Node.reword, rewordL_id l]
  | .keyValue k v _ => by rw [Node.reword, reword_id k, reword_id v]
  | .occur _ n => by rw [Node.reword, reword_id n]
  | .unwrap _ l => by rw [Node.reword, rewordL_id l]
  | .range a b _ => by rw [Node.reword, reword_id a, reword_id b]
  | .ctl _ a b => by rw [Node.reword, reword_id a, reword_id b]
  | .ctlRegexp _ => rfl
  | .ctlCbor n => by rw [Node.reword, reword_id n]
  | .choiceify _ l => by rw [Node.reword, rewordL_id l]
  | .choiceifyInline l => by rw [Node.reword, rewordL_id l]
theorem rewordL_id : ∀ l : List Node, Node.rewordL (fun s => s) l = l
  | [] => rfl
  | n :: l => by rw [Node.rewordL, reword_id n, rewordL_id l]
end
mutual
theorem rewordable_id {rx : String → String → Bool} : ∀ n : Node, n.Rewordable (fun s => s) rx True
  | .literal _ => trivial
  | .prelude _ => trivial
  | .rule _ l => rewordableL_id l
  | .choice l => rewordableL_id l
  | .map l => rewordableL_id l
  | .array l => rewordableL_id l
  | .group l => rewordableL_id l
  | .keyValue k v _ => ⟨.inl trivial, rewordable_id k, rewordable_id v⟩
  | .occur _ n => rewordable_id n
  | .unwrap _ l => rewordableL_id l
  | .range _ _ _ => trivial
  | .ctl op _ _ => by cases op <;> first | exact trivial | exact fun _ => rfl
  | .ctlRegexp _ => fun _ => rfl
  | .ctlCbor n => ⟨fun _ => rfl, rewordable_id n⟩
  | .choiceify _ l => rewordableL_id l
  | .choiceifyInline l => rewordableL_id l
theorem rewordableL_id {rx : String → String → Bool} : ∀ l : List Node, Node.RewordableL (fun s => s) rx True l
  | [] => trivial
  | n :: l => ⟨rewordable_id n, rewordableL_id l⟩
end

theorem ctx_reword_id : ∀ c : Ctx, c.reword (fun s => s) = c
  | .root _ => rfl
  | .frame g past d => by
    rw [Ctx.reword, ctx_reword_id past]
    congr 1
    simp only [reword_id]
    exact List.map_id' g
theorem ctx_rewordable_id {rx : String → String → Bool} : ∀ c : Ctx, c.Rewordable (fun s => s) rx True
  | .root _ => trivial
  | .frame _ past _ => ⟨fun _ _ => rewordable_id _, ctx_rewordable_id past⟩
end Cddl
