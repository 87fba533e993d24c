import Verif.Spec.Alike
import Verif.Proofs.VMap

/-! # Validation does not tell alike data apart -/

namespace Cddl

variable {S : Literal → Prop}

/-! ## Single data items -/

theorem intCmp_of {k i j : Int} (h1 : k = i ↔ k = j) (h2 : k < i ↔ k < j) : compare k i = compare k j := by
  rcases Int.lt_trichotomy k i with h | h | h
  · rw [intCmp_lt.mpr h, intCmp_lt.mpr (h2.mp h)]
  · rw [intCmp_eq.mpr h, intCmp_eq.mpr (h1.mp h)]
  · have h3 : j < k := by
      have := mt h1.mpr (by omega)
      have := mt h2.mpr (by omega)
      omega
    rw [← intCmp_swap, intCmp_lt.mpr h, ← intCmp_swap (a := j), intCmp_lt.mpr h3]

theorem floatCmp_of {k i j : F64} (h1 : k = i ↔ k = j) (h2 : k.ordKey < i.ordKey ↔ k.ordKey < j.ordKey) :
    compare k.ordKey i.ordKey = compare k.ordKey j.ordKey := by
  have h1 : k.ordKey = i.ordKey ↔ k.ordKey = j.ordKey :=
    ⟨fun h => congrArg _ (h1.mp (F64.ordKey_inj h)), fun h => congrArg _ (h1.mpr (F64.ordKey_inj h))⟩
  rcases Nat.lt_trichotomy k.ordKey i.ordKey with h | h | h
  · rw [natCmp_lt.mpr h, natCmp_lt.mpr (h2.mp h)]
  · rw [natCmp_eq.mpr h, natCmp_eq.mpr (h1.mp h)]
  · have h3 : j.ordKey < k.ordKey := by
      have := mt h1.mpr (by omega)
      have := mt h2.mpr (by omega)
      omega
    rw [← natCmp_swap, natCmp_lt.mpr h, ← natCmp_swap (a := j.ordKey), natCmp_lt.mpr h3]

/-- A literal of the schema compares alike. -/
theorem Alike.cmp {v w : Value} (h : Alike S v w) {l : Literal} (hl : S l) : Value.cmp l.toValue v = Value.cmp l.toValue w := by
  cases h with
  | same => rfl
  | integer _ _ h =>
    cases l with
    | int k => simp only [Literal.toValue, Value.cmp]; exact intCmp_of (h k hl).1 (h k hl).2
    | _ => simp [Literal.toValue, Value.cmp, Value.tag]
  | float h =>
    cases l with
    | float k => simp only [Literal.toValue, Value.cmp]; exact floatCmp_of (h k hl).1 (h k hl).2.1
    | _ => simp [Literal.toValue, Value.cmp, Value.tag]
  | array _ => cases l <;> simp [Literal.toValue, Value.cmp, Value.tag]
  | map _ _ => cases l <;> simp [Literal.toValue, Value.cmp, Value.tag]

theorem Alike.beq {v w : Value} (h : Alike S v w) {l : Literal} (hl : S l) : v.beq l.toValue = w.beq l.toValue := by
  unfold Value.beq
  rw [← Value.cmp_swap l.toValue v, ← Value.cmp_swap l.toValue w, h.cmp hl]

theorem Alike.prelude {v w : Value} (h : Alike S v w) (p : PreludeType) : validatePreludeType p v = validatePreludeType p w := by
  cases h with
  | same => rfl
  | integer h1 h2 _ =>
    cases p <;> simp only [validatePreludeType]
    · rw [if_neg (by omega), if_neg (by omega)]
    · rw [if_pos h1, if_pos h2]
  | _ => cases p <;> rfl

theorem Alike.sizeUint {v w : Value} (h : Alike S v w) (z : Node × Node × Bool) : validateSizeUint z v = validateSizeUint z w := by
  cases h with
  | integer h1 h2 _ =>
    unfold validateSizeUint
    simp only [if_pos h1, if_pos h2]
  | _ => rfl

theorem Alike.sizeTstr {v w : Value} (h : Alike S v w) (z : Node × Node × Bool) : validateSizeTstr z v = validateSizeTstr z w := by
  cases h <;> rfl

theorem Alike.sizeBstr {v w : Value} (h : Alike S v w) (z : Node × Node × Bool) : validateSizeBstr z v = validateSizeBstr z w := by
  cases h <;> rfl

theorem Alike.limits {v w : Value} (h : Alike S v w) {k : Int} (hk : S (.int k)) :
    validateLtUint k v = validateLtUint k w ∧ validateLtNint k v = validateLtNint k w ∧ validateLtInt k v = validateLtInt k w ∧
    validateLeUint k v = validateLeUint k w ∧ validateLeNint k v = validateLeNint k w ∧ validateLeInt k v = validateLeInt k w ∧
    validateGtUint k v = validateGtUint k w ∧ validateGtNint k v = validateGtNint k w ∧ validateGtInt k v = validateGtInt k w ∧
    validateGeUint k v = validateGeUint k w ∧ validateGeNint k v = validateGeNint k w ∧ validateGeInt k v = validateGeInt k w := by
  cases h with
  | @integer i j h1 h2 h =>
    obtain ⟨h3, h4⟩ := h k hk
    have e1 : (i < k) = (j < k) := by rw [eq_iff_iff]; omega
    have e2 : (i ≤ k) = (j ≤ k) := by rw [eq_iff_iff]; omega
    have e3 : (i > k) = (j > k) := by rw [eq_iff_iff]; omega
    have e4 : (i ≥ k) = (j ≥ k) := by rw [eq_iff_iff]; omega
    have n1 : ¬ i ≥ 0 := by omega
    have n2 : ¬ j ≥ 0 := by omega
    simp only [validateLtUint, validateLtNint, validateLtInt, validateLeUint, validateLeNint, validateLeInt, validateGtUint,
      validateGtNint, validateGtInt, validateGeUint, validateGeNint, validateGeInt, h1, h2, n1, n2, e1, e2, e3, e4, and_self]
  | _ => exact ⟨rfl, rfl, rfl, rfl, rfl, rfl, rfl, rfl, rfl, rfl, rfl, rfl⟩

theorem Alike.range {v w : Value} (h : Alike S v w) {a b : Literal} (ha : S a) (hb : S b) (shown : String) (i : Bool) :
    rangeMatch shown a b v i = rangeMatch shown a b w i := by
  cases h with
  | @integer x y _ _ h =>
    cases a with
    | int a =>
      cases b with
      | int b =>
        obtain ⟨h1, h2⟩ := h a ha
        obtain ⟨h3, h4⟩ := h b hb
        have e1 : (x < a) = (y < a) := by rw [eq_iff_iff]; omega
        have e2 : (x ≤ b) = (y ≤ b) := by rw [eq_iff_iff]; omega
        have e3 : (x < b) = (y < b) := by rw [eq_iff_iff]; omega
        have e : checkRangeInt a b x i = checkRangeInt a b y i := by simp only [checkRangeInt, e1, e2, e3]
        simp only [rangeMatch, e]
      | _ => rfl
    | _ => cases b <;> rfl
  | @float x y h =>
    cases a with
    | float a =>
      cases b with
      | float b =>
        obtain ⟨_, _, h1, _⟩ := h a ha
        obtain ⟨_, _, h3, h4⟩ := h b hb
        have e : checkRangeFloat a b x i = checkRangeFloat a b y i := by simp only [checkRangeFloat, h1, h3, h4]
        simp only [rangeMatch, e]
      | _ => rfl
    | _ => cases b <;> rfl
  | same => rfl
  | _ => cases a <;> cases b <;> rfl

theorem Alike.regexp {v w : Value} (h : Alike S v w) (env : Env) (p : String) :
    validateControlRegexp env p v = validateControlRegexp env p w := by
  cases h <;> rfl

/-! ## Working copies -/

/-- Alike, and as maps are kept. -/
structure Twin (S : Literal → Prop) (v w : Value) : Prop where
  alike : Alike S v w
  left : v.WF
  right : w.WF

/-- Working copies of arrays. -/
def TwinArr (S : Literal → Prop) (a b : WArr) : Prop :=
  All2 (Twin S) a.array b.array ∧ All2 (All2 (Twin S)) a.snaps b.snaps

/-- A pair of one map and its counterpart in the other. -/
abbrev Both := (Value × Value) × (Value × Value)

/-- The pairs of two maps, with keys in the same order. -/
structure Pool (S : Literal → Prop) (Z : Both → Prop) : Prop where
  key : ∀ z, Z z → Twin S z.1.1 z.2.1
  value : ∀ z, Z z → Twin S z.1.2 z.2.2
  order : ∀ z y, Z z → Z y → Value.cmp z.1.1 y.1.1 = Value.cmp z.2.1 y.2.1

/-- Keys of pairs from the pool compare the same way in both maps. -/
def SameOrder (Z : Both → Prop) : Prop := ∀ z y, Z z → Z y → Value.cmp z.1.1 y.1.1 = Value.cmp z.2.1 y.2.1

/-- Lists of pairs from the pool. -/
def TwinList (Z : Both → Prop) (m m' : VMap) : Prop :=
  ∃ zs : List Both, (∀ z ∈ zs, Z z) ∧ m = zs.map Prod.fst ∧ m' = zs.map Prod.snd

theorem TwinList.nil {Z : Both → Prop} : TwinList Z [] [] := ⟨[], by simp, rfl, rfl⟩

theorem TwinList.cons {Z : Both → Prop} {z : Both} {m m' : VMap} (hz : Z z) (h : TwinList Z m m') :
    TwinList Z (z.1 :: m) (z.2 :: m') := by
  obtain ⟨zs, h1, rfl, rfl⟩ := h
  exact ⟨z :: zs, by simp only [List.forall_mem_cons]; exact ⟨hz, h1⟩, rfl, rfl⟩

theorem TwinList.snoc {Z : Both → Prop} {z : Both} {m m' : VMap} (hz : Z z) (h : TwinList Z m m') :
    TwinList Z (m ++ [z.1]) (m' ++ [z.2]) := by
  obtain ⟨zs, h1, rfl, rfl⟩ := h
  refine ⟨zs ++ [z], ?_, by simp, by simp⟩
  intro y hy
  rcases List.mem_append.mp hy with h | h
  · exact h1 y h
  · rw [List.mem_singleton.mp h]; exact hz

/-- Working copies of maps. -/
def TwinMap (Z : Both → Prop) (a b : WMap) : Prop :=
  TwinList Z a.map b.map ∧ All2 (TwinList Z) a.snaps b.snaps

/-- The same outcome, with related working copies. -/
inductive SRel {σ : Type} (R : σ → σ → Prop) : SRes σ → SRes σ → Prop
  | ok {a b} : R a b → SRel R (.ok a) (.ok b)
  | err (e) {a b} : R a b → SRel R (.err e a) (.err e b)
  | panic : SRel R .panic .panic
  | fuel : SRel R .fuel .fuel

/-! ### Maps -/

theorem insert_twin {Z : Both → Prop} (hZ : SameOrder Z) {z : Both} (hz : Z z) : ∀ {zs : List Both}, (∀ y ∈ zs, Z y) →
    TwinList Z (VMap.insert (zs.map Prod.fst) z.1.1 z.1.2) (VMap.insert (zs.map Prod.snd) z.2.1 z.2.2)
  | [], _ => ⟨[z], by simpa using hz, rfl, rfl⟩
  | y :: ys, h => by
    have hy := h y (by simp)
    have ho := hZ z y hz hy
    simp only [List.map_cons, VMap.insert, ← ho]
    cases hc : Value.cmp z.1.1 y.1.1 with
    | lt => exact .cons hz (.cons hy ⟨ys, fun q hq => h q (by simp [hq]), rfl, rfl⟩)
    | eq =>
      have e1 := (Value.cmp_eq _ _).mp hc
      have e2 := (Value.cmp_eq _ _).mp (ho ▸ hc)
      dsimp only
      rw [← e1, ← e2]
      exact .cons (z := z) hz ⟨ys, fun q hq => h q (by simp [hq]), rfl, rfl⟩
    | gt => exact .cons hy (insert_twin hZ hz fun q hq => h q (by simp [hq]))

theorem extend_twin {Z : Both → Prop} (hZ : SameOrder Z) : ∀ {ys : List Both} {m m' : VMap}, (∀ y ∈ ys, Z y) → TwinList Z m m' →
    TwinList Z (VMap.extend m (ys.map Prod.fst)) (VMap.extend m' (ys.map Prod.snd))
  | [], _, _, _, hm => hm
  | y :: ys, m, m', h, hm => by
    obtain ⟨zs, h1, rfl, rfl⟩ := hm
    exact extend_twin hZ (m := VMap.insert (zs.map Prod.fst) y.1.1 y.1.2) (m' := VMap.insert (zs.map Prod.snd) y.2.1 y.2.2)
      (fun q hq => h q (by simp [hq])) (insert_twin hZ (h y (by simp)) h1)

theorem remove_twin {Z : Both → Prop} (hZ : SameOrder Z) {z : Both} (hz : Z z) : ∀ {zs : List Both}, (∀ y ∈ zs, Z y) →
    (VMap.remove (zs.map Prod.fst) z.1.1 = none ∧ VMap.remove (zs.map Prod.snd) z.2.1 = none) ∨
    ∃ y m m', Z y ∧ y.1.1 = z.1.1 ∧ y.2.1 = z.2.1 ∧ TwinList Z m m' ∧
      VMap.remove (zs.map Prod.fst) z.1.1 = some (y.1.2, m) ∧ VMap.remove (zs.map Prod.snd) z.2.1 = some (y.2.2, m')
  | [], _ => .inl ⟨rfl, rfl⟩
  | y :: ys, h => by
    have hy := h y (by simp)
    have ht : ∀ q ∈ ys, Z q := fun q hq => h q (by simp [hq])
    have ho := hZ z y hz hy
    simp only [List.map_cons, VMap.remove, ← ho]
    cases hc : Value.cmp z.1.1 y.1.1 with
    | lt => exact .inl ⟨rfl, rfl⟩
    | eq =>
      have e1 := (Value.cmp_eq _ _).mp hc
      have e2 := (Value.cmp_eq _ _).mp (ho ▸ hc)
      exact .inr ⟨y, _, _, hy, e1.symm, e2.symm, ⟨ys, ht, rfl, rfl⟩, rfl, rfl⟩
    | gt =>
      rcases remove_twin hZ hz ht with ⟨h1, h2⟩ | ⟨q, m, m', h1, h2, h3, h4, h5, h6⟩
      · rw [h1, h2]; exact .inl ⟨rfl, rfl⟩
      · rw [h5, h6]; exact .inr ⟨q, _, _, h1, h2, h3, .cons hy h4, rfl, rfl⟩

theorem get_twin {Z : Both → Prop} (hZ : Pool S Z) {l : Literal} (hl : S l) : ∀ {zs : List Both}, (∀ y ∈ zs, Z y) →
    (VMap.get (zs.map Prod.fst) l.toValue = none ∧ VMap.get (zs.map Prod.snd) l.toValue = none) ∨
    ∃ y, Z y ∧ y.1.1 = l.toValue ∧ y.2.1 = l.toValue ∧
      VMap.get (zs.map Prod.fst) l.toValue = some y.1.2 ∧ VMap.get (zs.map Prod.snd) l.toValue = some y.2.2
  | [], _ => .inl ⟨rfl, rfl⟩
  | y :: ys, h => by
    have hy := h y (by simp)
    have ho := (hZ.key y hy).alike.cmp hl
    simp only [List.map_cons, VMap.get, ← ho]
    cases hc : Value.cmp l.toValue y.1.1 with
    | lt => exact .inl ⟨rfl, rfl⟩
    | eq => exact .inr ⟨y, hy, ((Value.cmp_eq _ _).mp hc).symm, ((Value.cmp_eq _ _).mp (ho ▸ hc)).symm, rfl, rfl⟩
    | gt => exact get_twin hZ hl fun q hq => h q (by simp [hq])

theorem wrewind_twin {Z : Both → Prop} (hZ : SameOrder Z) {a b : WMap} (h : TwinMap Z a b) : SRel (TwinMap Z) a.rewind b.rewind := by
  obtain ⟨h1, h2⟩ := h
  unfold WMap.rewind
  cases hs : a.snaps <;> cases ht : b.snaps <;> rw [hs, ht] at h2
  · exact .panic
  · cases h2
  · cases h2
  · cases h2 with
    | cons h3 h4 =>
      obtain ⟨ys, h5, rfl, rfl⟩ := h3
      exact .ok ⟨extend_twin hZ h5 h1, h4⟩

theorem wcommit_twin {Z : Both → Prop} {a b : WMap} (h : TwinMap Z a b) : SRel (TwinMap Z) a.commit b.commit := by
  obtain ⟨h1, h2⟩ := h
  unfold WMap.commit
  cases hs : a.snaps <;> cases ht : b.snaps <;> rw [hs, ht] at h2
  · exact .panic
  · cases h2
  · cases h2
  · cases h2 with
    | cons h3 h4 => exact .ok ⟨h1, h4⟩

theorem wremove_twin {Z : Both → Prop} (hZ : SameOrder Z) {a b : WMap} (h : TwinMap Z a b) {z : Both} (hz : Z z) :
    SRel (TwinMap Z) (a.remove z.1.1) (b.remove z.2.1) := by
  obtain ⟨⟨zs, h0, ha, hb⟩, h2⟩ := h
  unfold WMap.remove
  rw [ha, hb]
  rcases remove_twin hZ hz h0 with ⟨h1, h2⟩ | ⟨q, m, m', h1, h3, h4, h5, h6, h7⟩
  · rw [h1, h2]; exact .panic
  · rw [h6, h7]
    dsimp only
    rw [← h3, ← h4]
    cases hs : a.snaps <;> cases ht : b.snaps <;> rw [hs, ht] at h2
    · exact .ok ⟨h5, .nil⟩
    · cases h2
    · cases h2
    · cases h2 with
      | cons h8 h9 => exact .ok ⟨h5, .cons (TwinList.snoc (z := q) h1 h8) h9⟩

/-! ### Arrays -/

theorem all2_append {α β : Type} {R : α → β → Prop} {a a' : List α} {b b' : List β} (h : All2 R a b) (h' : All2 R a' b') :
    All2 R (a ++ a') (b ++ b') := by
  induction h with
  | nil => exact h'
  | cons h _ ih => exact .cons h ih

theorem arewind_twin {a b : WArr} (h : TwinArr S a b) : SRel (TwinArr S) a.rewind b.rewind := by
  obtain ⟨h1, h2⟩ := h
  unfold WArr.rewind
  cases hs : a.snaps <;> cases ht : b.snaps <;> rw [hs, ht] at h2
  · exact .panic
  · cases h2
  · cases h2
  · cases h2 with
    | cons h3 h4 => exact .ok ⟨all2_append h3 h1, h4⟩

theorem acommit_twin {a b : WArr} (h : TwinArr S a b) : SRel (TwinArr S) a.commit b.commit := by
  obtain ⟨h1, h2⟩ := h
  unfold WArr.commit
  cases hs : a.snaps <;> cases ht : b.snaps <;> rw [hs, ht] at h2
  · exact .panic
  · cases h2
  · cases h2
  · cases h2 with
    | cons h3 h4 => exact .ok ⟨h1, h4⟩

theorem apop_twin {a b : WArr} (h : TwinArr S a b) : SRel (TwinArr S) a.popFront b.popFront := by
  obtain ⟨h1, h2⟩ := h
  unfold WArr.popFront
  cases ha : a.array <;> cases hb : b.array <;> rw [ha, hb] at h1
  · exact .panic
  · cases h1
  · cases h1
  · cases h1 with
    | cons h3 h4 =>
      cases hs : a.snaps <;> cases ht : b.snaps <;> rw [hs, ht] at h2
      · exact .ok ⟨h4, .nil⟩
      · cases h2
      · cases h2
      · cases h2 with
        | cons h5 h6 => exact .ok ⟨h4, .cons (all2_append h5 (.cons h3 .nil)) h6⟩

/-! ## Loops -/

theorem choiceLoop_twin {f g : Node → Res Unit} {msg : String} : ∀ {l : List Node}, (∀ n ∈ l, f n = g n) →
    choiceLoop f msg l = choiceLoop g msg l
  | [], _ => rfl
  | n :: ns, h => by
    have h1 := h n (by simp)
    have h2 := choiceLoop_twin (msg := msg) fun m hm => h m (List.mem_cons_of_mem n hm)
    simp only [choiceLoop, h1, h2]

section
variable {σ : Type} {R : σ → σ → Prop}

theorem choiceLoopS_twin {f g : Node → σ → SRes σ} {stop : Err → Bool} {msg : String} : ∀ {l : List Node} {a b : σ},
    (∀ n ∈ l, ∀ a b, R a b → SRel R (f n a) (g n b)) → R a b →
    SRel R (choiceLoopS f stop msg l a) (choiceLoopS g stop msg l b)
  | [], _, _, _, h => .err _ h
  | n :: ns, a, b, h, hab => by
    have h1 := h n (by simp) a b hab
    simp only [choiceLoopS]
    generalize f n a = r at h1 ⊢
    generalize g n b = r' at h1 ⊢
    cases h1 with
    | ok h => exact .ok h
    | err e h2 =>
      dsimp only
      split
      · exact .err e h2
      · exact choiceLoopS_twin (fun m hm => h m (by simp [hm])) h2
    | panic => exact .panic
    | fuel => exact .fuel

theorem seqLoopS_twin {f g : Node → σ → SRes σ} : ∀ {l : List Node} {a b : σ},
    (∀ n ∈ l, ∀ a b, R a b → SRel R (f n a) (g n b)) → R a b → SRel R (seqLoopS f l a) (seqLoopS g l b)
  | [], _, _, _, h => .ok h
  | n :: ns, a, b, h, hab => by
    have h1 := h n (by simp) a b hab
    simp only [seqLoopS]
    generalize f n a = r at h1 ⊢
    generalize g n b = r' at h1 ⊢
    cases h1 with
    | ok h2 => exact seqLoopS_twin (fun m hm => h m (by simp [hm])) h2
    | err e h2 => exact .err e h2
    | panic => exact .panic
    | fuel => exact .fuel

theorem occurLoopS_twin {f g : σ → SRes σ} {lo up : Nat} {msg : String} (h : ∀ a b, R a b → SRel R (f a) (g b)) :
    ∀ {k count : Nat} {a b : σ}, R a b → SRel R (occurLoopS f lo up msg k count a) (occurLoopS g lo up msg k count b)
  | 0, _, _, _, _ => .fuel
  | k + 1, count, a, b, hab => by
    have h1 := h a b hab
    simp only [occurLoopS]
    generalize f a = r at h1 ⊢
    generalize g b = r' at h1 ⊢
    cases h1 with
    | ok h2 =>
      dsimp only
      split
      · split
        · exact .err _ h2
        · exact .ok h2
      · exact occurLoopS_twin h h2
    | err e h2 =>
      dsimp only
      split
      · split
        · exact .err _ h2
        · exact .ok h2
      · exact .err _ h2
    | panic => exact .panic
    | fuel => exact .fuel

end

/-! ## Scopes -/

theorem overL {l : List Node} (h : ∀ x ∈ Node.litsL l, S x) : ∀ n ∈ l, n.Over S := by
  induction l with
  | nil => simp
  | cons m ms ih =>
    simp only [Node.litsL, List.mem_append] at h
    intro n hn
    rcases List.mem_cons.mp hn with rfl | hn
    · exact fun x hx => h x (.inl hx)
    · exact ih (fun x hx => h x (.inr hx)) n hn

theorem gmapFind_over {g : List (String × Node)} {s : String} {n : Node} (h : ∀ p ∈ g, p.2.Over S) (hf : gmapFind g s = some n) :
    n.Over S := by
  induction g with
  | nil => cases hf
  | cons p g ih =>
    simp only [gmapFind] at hf
    cases hr : gmapFind g s with
    | some x => rw [hr] at hf; cases hf; exact ih (fun q hq => h q (by simp [hq])) hr
    | none =>
      rw [hr] at hf
      dsimp only at hf
      split at hf
      · cases hf; exact h p (by simp)
      · cases hf

theorem lookup_over {env : Env} (he : env.Over S) {c c' : Ctx} {s : String} {as : List Node} {n : Node} (hc : c.Over S)
    (ha : ∀ m ∈ as, m.Over S) (h : c.lookupRule env s as = .ok (n, c')) : n.Over S ∧ c'.Over S := by
  have via : ((env.lookup s).bind fun rd => (c.derive rd as).bind fun c => .ok (rd.node, c)) = .ok (n, c') →
      n.Over S ∧ c'.Over S := by
    intro h
    cases hl : env.lookup s with
    | error e => rw [hl] at h; cases h
    | ok rd =>
      rw [hl] at h
      cases hd : c.derive rd as with
      | error e => simp only [Except.bind, hd] at h; cases h
      | ok d =>
        simp only [Except.bind, hd] at h
        cases h
        simp only [Ctx.derive] at hd
        split at hd
        · cases hd
        · cases hi : c.incDepth with
          | error e => rw [hi] at hd; cases hd
          | ok d =>
            rw [hi] at hd
            cases hd
            exact ⟨he s rd hl, fun p hp => ha _ (List.of_mem_zip hp).2, hc⟩
  cases c with
  | root d => exact via h
  | frame g past d =>
    simp only [Ctx.lookupRule] at h
    cases hg : gmapFind g s with
    | some m => rw [hg] at h; cases h; exact ⟨gmapFind_over hc.1 hg, hc.2⟩
    | none => rw [hg] at h; exact via h

/-! ## One step -/

/-- The recursive functions do not tell alike data apart. -/
structure Blind (S : Literal → Prop) (s : Rec) : Prop where
  val : ∀ {v w n c}, Twin S v w → n.Over S → c.Over S → s.val v n c = s.val w n c
  chf : ∀ {v w name c} {args : List Node}, Twin S v w → (∀ n ∈ args, n.Over S) → c.Over S →
    s.chf name args v c = s.chf name args w c
  arr : ∀ {a b n c}, TwinArr S a b → n.Over S → c.Over S → SRel (TwinArr S) (s.arr n a c) (s.arr n b c)
  map : ∀ {Z a b n c}, Pool S Z → TwinMap Z a b → n.Over S → c.Over S → SRel (TwinMap Z) (s.map n a c) (s.map n b c)
  mchf : ∀ {Z a b name c} {args : List Node}, Pool S Z → TwinMap Z a b → (∀ n ∈ args, n.Over S) → c.Over S →
    SRel (TwinMap Z) (s.mchf name args a c) (s.mchf name args b c)
  deref : ∀ {n c l}, n.Over S → c.Over S → s.deref n c = .ok l → S l
  chase : ∀ {n c m}, n.Over S → c.Over S → s.chase n c = .ok m → m.Over S

theorem bind_twin {α : Type} {r : Res α} {f g : α → Res Unit} (h : ∀ a, r = .ok a → f a = g a) : r.bind f = r.bind g := by
  cases r with
  | ok a => exact h a rfl
  | _ => rfl

theorem Twin.of_list {xs ys : List Value} (h : All2 (Alike S) xs ys) (hx : ∀ v ∈ xs, v.WF) (hy : ∀ v ∈ ys, v.WF) :
    All2 (Twin S) xs ys := by
  induction h with
  | nil => exact .nil
  | cons h _ ih =>
    simp only [List.forall_mem_cons] at hx hy
    exact .cons ⟨h, hx.1, hy.1⟩ (ih hx.2 hy.2)

/-- Alike maps have their keys in the same order. -/
theorem pool_of {m m' : VMap} (hk : All2 (Alike S) (m.map Prod.fst) (m'.map Prod.fst))
    (hv : All2 (Alike S) (m.map Prod.snd) (m'.map Prod.snd)) (hm : (Value.map m).WF) (hm' : (Value.map m').WF) :
    Pool S (fun z => z ∈ m.zip m') ∧ TwinList (fun z => z ∈ m.zip m') m m' := by
  have hp := (VMap.sorted_iff m).mp hm.1
  have hp' := (VMap.sorted_iff m').mp hm'.1
  have hw := (Value.WFMap_iff m).mp hm.2
  have hw' := (Value.WFMap_iff m').mp hm'.2
  clear hm hm'
  induction m generalizing m' with
  | nil =>
    cases m' with
    | nil => exact ⟨⟨by simp, by simp, by simp⟩, .nil⟩
    | cons => cases hk
  | cons p m ih =>
    cases m' with
    | nil => cases hk
    | cons q m' =>
      cases hk with
      | cons hk1 hk2 =>
        cases hv with
        | cons hv1 hv2 =>
          obtain ⟨hZ, zs, hz1, hz2, hz3⟩ := ih hk2 hv2 hp.tail hp'.tail (fun r hr => hw r (by simp [hr]))
            (fun r hr => hw' r (by simp [hr]))
          have w1 := hw p (by simp)
          have w2 := hw' q (by simp)
          refine ⟨⟨fun z hz => ?_, fun z hz => ?_, fun z y hz hy => ?_⟩, (p, q) :: zs, ?_, by simp [← hz2], by simp [← hz3]⟩
          · simp only [List.zip_cons_cons, List.mem_cons] at hz
            rcases hz with rfl | hz
            · exact ⟨hk1, w1.1, w2.1⟩
            · exact hZ.key z hz
          · simp only [List.zip_cons_cons, List.mem_cons] at hz
            rcases hz with rfl | hz
            · exact ⟨hv1, w1.2, w2.2⟩
            · exact hZ.value z hz
          · simp only [List.zip_cons_cons, List.mem_cons] at hz hy
            rcases hz with rfl | hz <;> rcases hy with rfl | hy
            · rw [Value.cmp_refl, Value.cmp_refl]
            · rw [hp.head (List.of_mem_zip hy).1, hp'.head (List.of_mem_zip hy).2]
            · rw [Value.cmp_gt.mpr (hp.head (List.of_mem_zip hz).1), Value.cmp_gt.mpr (hp'.head (List.of_mem_zip hz).2)]
            · exact hZ.order z y hz hy
          · simp only [List.zip_cons_cons, List.mem_cons]
            rintro z (rfl | hz)
            · exact .inl rfl
            · exact .inr (hz1 z hz)

theorem all2_self {α : Type} {R : α → α → Prop} (h : ∀ a, R a a) (l : List α) : All2 R l l := All2.refl h l

/-- What alike data is made of. -/
theorem Alike.arrays {xs : List Value} {w : Value} (h : Alike S (.array xs) w) : ∃ ys, w = .array ys ∧ All2 (Alike S) xs ys := by
  cases h with
  | same => exact ⟨xs, rfl, All2.refl .same xs⟩
  | array h => exact ⟨_, rfl, h⟩

theorem Alike.maps {m : VMap} {w : Value} (h : Alike S (.map m) w) : ∃ m', w = .map m' ∧
    All2 (Alike S) (m.map Prod.fst) (m'.map Prod.fst) ∧ All2 (Alike S) (m.map Prod.snd) (m'.map Prod.snd) := by
  cases h with
  | same => exact ⟨m, rfl, All2.refl .same _, All2.refl .same _⟩
  | map h h' => exact ⟨_, rfl, h, h'⟩

theorem limitOf_over {env : Env} {op : String} {n : Node} {i : Int} (hn : n.Over S) (h : limitOf env op n = .ok i) : S (.int i) := by
  cases n with
  | literal l =>
    cases l with
    | int k => simp only [limitOf, Res.ok.injEq] at h; subst h; exact hn _ (by simp [Node.lits])
    | _ => cases h
  | _ => cases h

section Step
variable {env : Env} {s : Rec} (h : Blind S s) (he : env.Over S)
include h he

omit he in
theorem control_twin {v w : Value} (ht : Twin S v w) {op : CtlOp} {t a : Node} {c : Ctx} (hn : (Node.ctl op t a).Over S)
    (hc : c.Over S) : validateControl env s op t a v c = validateControl env s op t a w c := by
  have h1 : a.Over S := fun x hx => hn x (by simp [Node.lits, hx])
  have h2 := ht.alike
  cases op <;> simp only [validateControl]
  · unfold validateControlSize
    refine bind_twin fun sn _ => bind_twin fun sz _ => bind_twin fun tn _ => ?_
    split
    · exact h2.sizeUint _
    · exact h2.sizeTstr _
    · exact h2.sizeBstr _
    · rfl
  all_goals
    first | unfold validateControlLt | unfold validateControlLe | unfold validateControlGt | unfold validateControlGe
    refine bind_twin fun an ha => bind_twin fun i hi => bind_twin fun tn _ => ?_
    have h3 := h2.limits (limitOf_over (h.chase h1 hc ha) hi)
    split <;> first | rfl | simp only [h3]

omit he in
theorem choiceify_twin {v w : Value} (ht : Twin S v w) {c : Ctx} (hc : c.Over S) {l : List Node} (hl : ∀ n ∈ l, n.Over S) :
    validateChoiceifyMembers s l v c = validateChoiceifyMembers s l w c := by
  unfold validateChoiceifyMembers
  refine choiceLoop_twin fun n hn => ?_
  have hn := hl n hn
  unfold choiceifyItem
  split
  · exact h.val ht (fun x hx => hn x (by simp [Node.lits, hx])) hc
  · exact h.chf ht (overL hn) hc
  · exact h.val ht hn hc

theorem chf_twin {v w : Value} (ht : Twin S v w) {c : Ctx} (hc : c.Over S) {name : String} {args : List Node}
    (ha : ∀ n ∈ args, n.Over S) : chfBody env s name args v c = chfBody env s name args w c := by
  unfold chfBody
  refine bind_twin fun p hp => ?_
  cases hl : c.lookupRule env name args with
  | error e => rw [hl] at hp; cases hp
  | ok q =>
    rw [hl] at hp
    cases hp
    obtain ⟨n, c'⟩ := p
    obtain ⟨h1, h2⟩ := lookup_over he hc ha hl
    dsimp only
    split
    · exact choiceify_twin h ht h2 (overL h1)
    · exact h.chf ht (overL h1) h2
    · rfl

theorem val_twin {v w : Value} (ht : Twin S v w) {n : Node} (hn : n.Over S) {c : Ctx} (hc : c.Over S) :
    valBody env s v n c = valBody env s w n c := by
  cases n with
  | literal l =>
    simp only [valBody, validateLiteral]
    rw [ht.alike.beq (hn l (by simp [Node.lits]))]
  | prelude p => exact ht.alike.prelude p
  | choice l => exact choiceLoop_twin fun n hm => h.val ht (overL hn n hm) hc
  | map l =>
    simp only [valBody]
    cases v with
    | map m =>
      obtain ⟨m', rfl, h1, h2⟩ := ht.alike.maps
      obtain ⟨hZ, hT⟩ := pool_of h1 h2 ht.left ht.right
      have := seqLoopS_twin (R := TwinMap fun z => z ∈ m.zip m') (f := fun mem w => s.map mem w c) (g := fun mem w => s.map mem w c)
        (l := l) (a := WMap.new m) (b := WMap.new m') (fun n hm a b hab => h.map hZ hab (overL hn n hm) hc) ⟨hT, .nil⟩
      simp only [validateMap]
      generalize seqLoopS (fun mem w => s.map mem w c) l (WMap.new m) = r at this ⊢
      generalize seqLoopS (fun mem w => s.map mem w c) l (WMap.new m') = r' at this ⊢
      cases this with
      | ok hab =>
        obtain ⟨⟨zs, -, e1, e2⟩, -⟩ := hab
        dsimp only
        rw [e1, e2]
        cases zs <;> rfl
      | _ => rfl
    | _ => cases ht.alike <;> rfl
  | array l =>
    simp only [valBody]
    cases v with
    | array xs =>
      obtain ⟨ys, rfl, h1⟩ := ht.alike.arrays
      have h2 := Twin.of_list h1 ((Value.WFArr_iff xs).mp ht.left) ((Value.WFArr_iff ys).mp ht.right)
      have := seqLoopS_twin (R := TwinArr S) (f := fun mem w => s.arr mem w c) (g := fun mem w => s.arr mem w c)
        (l := l) (a := WArr.new xs) (b := WArr.new ys) (fun n hm a b hab => h.arr hab (overL hn n hm) hc) ⟨h2, .nil⟩
      simp only [validateArray]
      generalize seqLoopS (fun mem w => s.arr mem w c) l (WArr.new xs) = r at this ⊢
      generalize seqLoopS (fun mem w => s.arr mem w c) l (WArr.new ys) = r' at this ⊢
      cases this with
      | @ok a b hab =>
        obtain ⟨h3, -⟩ := hab
        dsimp only
        cases e1 : a.array <;> cases e2 : b.array <;> rw [e1, e2] at h3 <;> first | rfl | cases h3
      | _ => rfl
    | _ => cases ht.alike <;> rfl
  | rule name args =>
    simp only [valBody, validateRule]
    refine bind_twin fun p hp => ?_
    cases hl : c.lookupRule env name args with
    | error e => rw [hl] at hp; cases hp
    | ok q =>
      rw [hl] at hp
      cases hp
      obtain ⟨n, c'⟩ := p
      obtain ⟨h1, h2⟩ := lookup_over he hc (overL hn) hl
      exact h.val ht h1 h2
  | group l =>
    simp only [valBody, validateStandaloneGroup]
    split
    · exact h.val ht (overL hn _ (by simp)) hc
    · rfl
  | keyValue => rfl
  | occur => rfl
  | unwrap => rfl
  | range a b i =>
    simp only [valBody, validateRange]
    refine bind_twin fun x hx => bind_twin fun y hy => ?_
    exact ht.alike.range (h.deref (fun l hl => hn l (by simp [Node.lits, hl])) hc hx)
      (h.deref (fun l hl => hn l (by simp [Node.lits, hl])) hc hy) _ _
  | ctl op t a => exact control_twin h ht hn hc
  | ctlRegexp p => exact ht.alike.regexp env p
  | ctlCbor n => cases ht.alike <;> rfl
  | choiceify name args => exact h.chf ht (overL hn) hc
  | choiceifyInline l => exact choiceify_twin h ht hc (overL hn)

omit he in
theorem arrayValue_twin {a b : WArr} (ht : TwinArr S a b) {n : Node} (hn : n.Over S) {c : Ctx} (hc : c.Over S) :
    SRel (TwinArr S) (validateArrayValue env s n a c) (validateArrayValue env s n b c) := by
  have h0 := ht
  obtain ⟨h1, h2⟩ := ht
  unfold validateArrayValue
  cases ea : a.array with
  | nil =>
    cases eb : b.array with
    | nil => exact .err _ h0
    | cons => rw [ea, eb] at h1; cases h1
  | cons v vs =>
    cases eb : b.array with
    | nil => rw [ea, eb] at h1; cases h1
    | cons w ws =>
      rw [ea, eb] at h1
      cases h1 with
      | cons h3 h4 =>
        dsimp only
        rw [h.val h3 hn hc]
        cases s.val w n c with
        | ok u => exact apop_twin h0
        | err e => exact .err e h0
        | panic => exact .panic
        | fuel => exact .fuel

theorem arr_twin {a b : WArr} (ht : TwinArr S a b) {n : Node} (hn : n.Over S) {c : Ctx} (hc : c.Over S) :
    SRel (TwinArr S) (arrBody env s n a c) (arrBody env s n b c) := by
  cases n with
  | occur o m => exact occurLoopS_twin (fun a b hab => h.arr hab (n := m) hn hc) ht
  | keyValue k t cut => exact arrayValue_twin h ht (fun x hx => hn x (by simp [Node.lits, hx])) hc
  | rule name args =>
    simp only [arrBody]
    cases hl : c.lookupRule env name args with
    | error e => exact .err e ht
    | ok q =>
      obtain ⟨n, c'⟩ := q
      obtain ⟨h1, h2⟩ := lookup_over he hc (overL hn) hl
      exact h.arr ht h1 h2
  | unwrap name args =>
    simp only [arrBody]
    cases hl : c.lookupRule env name args with
    | error e => exact .err e ht
    | ok q =>
      obtain ⟨n, c'⟩ := q
      obtain ⟨h1, h2⟩ := lookup_over he hc (overL hn) hl
      dsimp only
      unfold validateArrayUnwrap
      split
      · exact seqLoopS_twin (fun n hm a b hab => h.arr hab (overL h1 n hm) h2) ht
      · exact .err _ ht
  | choice l => exact choiceLoopS_twin (fun n hm a b hab => h.arr hab (overL hn n hm) hc) ht
  | group l =>
    simp only [arrBody, validateArrayGroup]
    have := seqLoopS_twin (R := TwinArr S) (f := fun mem w => s.arr mem w c) (g := fun mem w => s.arr mem w c)
      (l := l) (a := a.snapshot) (b := b.snapshot) (fun n hm a b hab => h.arr hab (overL hn n hm) hc) ⟨ht.1, .cons .nil ht.2⟩
    generalize seqLoopS (fun mem w => s.arr mem w c) l a.snapshot = r at this ⊢
    generalize seqLoopS (fun mem w => s.arr mem w c) l b.snapshot = r' at this ⊢
    cases this with
    | ok hab => exact acommit_twin hab
    | @err e a' b' hab =>
      have := arewind_twin hab
      dsimp only
      generalize a'.rewind = r at this ⊢
      generalize b'.rewind = r' at this ⊢
      cases this with
      | ok h => exact .err e h
      | err e h => exact .err e h
      | panic => exact .panic
      | fuel => exact .fuel
    | panic => exact .panic
    | fuel => exact .fuel
  | _ => exact arrayValue_twin h ht hn hc

omit he in
theorem mapKey_twin {Z : Both → Prop} (hZ : Pool S Z) {a b : WMap} (ht : TwinMap Z a b) {n : Node} (hn : n.Over S) {c : Ctx}
    (hc : c.Over S) :
    (∃ z, Z z ∧ validateMapKey env s n a c = .ok z.1 ∧ validateMapKey env s n b c = .ok z.2) ∨
    (∃ e, validateMapKey env s n a c = .err e ∧ validateMapKey env s n b c = .err e) ∨
    (validateMapKey env s n a c = .panic ∧ validateMapKey env s n b c = .panic) ∨
    (validateMapKey env s n a c = .fuel ∧ validateMapKey env s n b c = .fuel) := by
  obtain ⟨⟨zs, h1, h2, h3⟩, -⟩ := ht
  have search : ∀ (f : Value → Res Unit) (msg : String), (∀ z, Z z → f z.1.1 = f z.2.1) → ∀ zs : List Both, (∀ z ∈ zs, Z z) →
      (∃ z, Z z ∧ mapSearchLoop f msg (zs.map Prod.fst) = .ok z.1 ∧ mapSearchLoop f msg (zs.map Prod.snd) = .ok z.2) ∨
      (∃ e, mapSearchLoop f msg (zs.map Prod.fst) = .err e ∧ mapSearchLoop f msg (zs.map Prod.snd) = .err e) ∨
      (mapSearchLoop f msg (zs.map Prod.fst) = .panic ∧ mapSearchLoop f msg (zs.map Prod.snd) = .panic) ∨
      (mapSearchLoop f msg (zs.map Prod.fst) = .fuel ∧ mapSearchLoop f msg (zs.map Prod.snd) = .fuel) := by
    intro f msg hf zs
    induction zs with
    | nil => exact fun _ => .inr (.inl ⟨_, rfl, rfl⟩)
    | cons z zs ih =>
      intro hz
      have hz0 := hz z (by simp)
      simp only [List.map_cons, mapSearchLoop, ← hf z hz0]
      cases f z.1.1 with
      | ok u => exact .inl ⟨z, hz0, rfl, rfl⟩
      | err e => exact ih fun y hy => hz y (by simp [hy])
      | panic => exact .inr (.inr (.inl ⟨rfl, rfl⟩))
      | fuel => exact .inr (.inr (.inr ⟨rfl, rfl⟩))
  cases n with
  | literal l =>
    simp only [validateMapKey, mapSearchLiteral, h2, h3]
    rcases get_twin hZ (hn l (by simp [Node.lits])) h1 with ⟨e1, e2⟩ | ⟨y, hy, k1, k2, e1, e2⟩
    · rw [e1, e2]; exact .inr (.inl ⟨_, rfl, rfl⟩)
    · rw [e1, e2]
      refine .inl ⟨y, hy, ?_, ?_⟩
      · rw [← k1]
      · rw [← k2]
  | _ =>
    simp only [validateMapKey, mapSearch, h2, h3]
    exact search _ _ (fun z hz => h.val (hZ.key z hz) hn hc) zs h1

omit he in
theorem keyvalue_twin {Z : Both → Prop} (hZ : Pool S Z) {a b : WMap} (ht : TwinMap Z a b) {k t : Node} {cut : Bool}
    (hk : k.Over S) (hv : t.Over S) {c : Ctx} (hc : c.Over S) :
    SRel (TwinMap Z) (validateMapKeyvalue env s k t cut a c) (validateMapKeyvalue env s k t cut b c) := by
  unfold validateMapKeyvalue
  rcases mapKey_twin h hZ ht hk hc with ⟨z, hz, e1, e2⟩ | ⟨e, e1, e2⟩ | ⟨e1, e2⟩ | ⟨e1, e2⟩
  · rw [e1, e2]
    dsimp only
    rw [h.val (hZ.value z hz) hv hc]
    cases s.val z.2.2 t c with
    | ok u => exact wremove_twin hZ.order ht hz
    | err e =>
      dsimp only
      split
      · exact .err _ ht
      · exact .err _ ht
    | panic => exact .panic
    | fuel => exact .fuel
  · rw [e1, e2]; exact .err e ht
  · rw [e1, e2]; exact .panic
  · rw [e1, e2]; exact .fuel

theorem mchf_twin {Z : Both → Prop} (hZ : Pool S Z) {a b : WMap} (ht : TwinMap Z a b) {name : String} {args : List Node}
    (ha : ∀ n ∈ args, n.Over S) {c : Ctx} (hc : c.Over S) :
    SRel (TwinMap Z) (mchfBody env s name args a c) (mchfBody env s name args b c) := by
  unfold mchfBody
  cases hl : c.lookupRule env name args with
  | error e => exact .err e ht
  | ok q =>
    obtain ⟨n, c'⟩ := q
    obtain ⟨h1, h2⟩ := lookup_over he hc ha hl
    dsimp only
    split
    · refine choiceLoopS_twin (fun n hm a b hab => ?_) ht
      have hn := overL h1 n hm
      unfold mapChoiceifyItem
      split
      · exact h.map hZ hab (fun x hx => hn x (by simp [Node.lits, hx])) h2
      · exact h.mchf hZ hab (overL hn) h2
      · exact h.map hZ hab hn h2
    · exact h.mchf hZ ht (overL h1) h2
    · exact .err _ ht

theorem map_twin {Z : Both → Prop} (hZ : Pool S Z) {a b : WMap} (ht : TwinMap Z a b) {n : Node} (hn : n.Over S) {c : Ctx}
    (hc : c.Over S) : SRel (TwinMap Z) (mapBody env s n a c) (mapBody env s n b c) := by
  cases n with
  | occur o m => exact occurLoopS_twin (fun a b hab => h.map hZ hab (n := m) hn hc) ht
  | keyValue k t cut =>
    exact keyvalue_twin h hZ ht (fun x hx => hn x (by simp [Node.lits, hx])) (fun x hx => hn x (by simp [Node.lits, hx])) hc
  | rule name args =>
    simp only [mapBody]
    cases hl : c.lookupRule env name args with
    | error e => exact .err e ht
    | ok q =>
      obtain ⟨n, c'⟩ := q
      obtain ⟨h1, h2⟩ := lookup_over he hc (overL hn) hl
      exact h.map hZ ht h1 h2
  | unwrap name args =>
    simp only [mapBody]
    cases hl : c.lookupRule env name args with
    | error e => exact .err e ht
    | ok q =>
      obtain ⟨n, c'⟩ := q
      obtain ⟨h1, h2⟩ := lookup_over he hc (overL hn) hl
      dsimp only
      unfold validateMapUnwrap
      split
      · exact seqLoopS_twin (fun n hm a b hab => h.map hZ hab (overL h1 n hm) h2) ht
      · exact .err _ ht
  | choice l => exact choiceLoopS_twin (fun n hm a b hab => h.map hZ hab (overL hn n hm) hc) ht
  | choiceifyInline l => exact choiceLoopS_twin (fun n hm a b hab => h.map hZ hab (overL hn n hm) hc) ht
  | choiceify name args => exact h.mchf hZ ht (overL hn) hc
  | group l =>
    simp only [mapBody, validateMapGroup]
    have := seqLoopS_twin (R := TwinMap Z) (f := fun mem w => s.map mem w c) (g := fun mem w => s.map mem w c)
      (l := l) (a := a.snapshot) (b := b.snapshot) (fun n hm a b hab => h.map hZ hab (overL hn n hm) hc) ⟨ht.1, .cons .nil ht.2⟩
    generalize seqLoopS (fun mem w => s.map mem w c) l a.snapshot = r at this ⊢
    generalize seqLoopS (fun mem w => s.map mem w c) l b.snapshot = r' at this ⊢
    cases this with
    | ok hab => exact wcommit_twin hab
    | @err e a' b' hab =>
      have := wrewind_twin hZ.order hab
      dsimp only
      generalize a'.rewind = r at this ⊢
      generalize b'.rewind = r' at this ⊢
      cases this with
      | ok h => exact .err _ h
      | err e h => exact .err e h
      | panic => exact .panic
      | fuel => exact .fuel
    | panic => exact .panic
    | fuel => exact .fuel
  | _ => exact .err _ ht

theorem step_blind : Blind S (step env s) where
  val ht hn hc := val_twin h he ht hn hc
  chf ht ha hc := chf_twin h he ht hc ha
  arr ht hn hc := arr_twin h he ht hn hc
  map hZ ht hn hc := map_twin h he hZ ht hn hc
  mchf hZ ht ha hc := mchf_twin h he hZ ht ha hc
  deref {n c l} hn hc hd := by
    simp only [step, derefBody] at hd
    cases n with
    | literal m => cases hd; exact hn _ (by simp [Node.lits])
    | rule name args =>
      dsimp only at hd
      cases hl : c.lookupRule env name args with
      | error e => rw [hl] at hd; cases hd
      | ok q =>
        rw [hl] at hd
        obtain ⟨h1, h2⟩ := lookup_over he hc (overL hn) hl
        exact h.deref h1 h2 hd
    | _ => cases hd
  chase {n c l} hn hc hd := by
    simp only [step, chaseBody] at hd
    cases n with
    | rule name args =>
      dsimp only at hd
      cases hl : c.lookupRule env name args with
      | error e => rw [hl] at hd; cases hd
      | ok q =>
        rw [hl] at hd
        obtain ⟨h1, h2⟩ := lookup_over he hc (overL hn) hl
        exact h.chase h1 h2 hd
    | _ => cases hd; exact hn

end Step

theorem fns_blind {env : Env} (he : env.Over S) : ∀ k, Blind S (fns env k)
  | 0 => {
      val := fun _ _ _ => rfl, chf := fun _ _ _ => rfl, arr := fun _ _ _ => .fuel, map := fun _ _ _ _ => .fuel
      mchf := fun _ _ _ _ => .fuel, deref := (fun _ _ h => by cases h), chase := (fun _ _ h => by cases h) }
  | k + 1 => step_blind (fns_blind he k) he

end Cddl
