import Verif.Spec.Akin
import Verif.Proofs.Alike
import Verif.Proofs.Bytes
import Verif.Proofs.Tidy

/-! # Validation does not tell akin data apart -/

namespace Cddl

variable {T : Probes} {rx : String → String → Bool}

/-! ## Single data items -/

/-- Both are the literal or none is. -/
theorem Akin.lit {v w : Value} (h : Akin T rx v w) {l : Literal} (hl : T.lit l) : v = l.toValue ↔ w = l.toValue := by
  cases h with
  | same => rfl
  | integer _ h _ =>
    cases l with
    | int k => simp only [Literal.toValue, Value.integer.injEq]; exact ⟨fun e => ((h k hl).1.mp e.symm).symm, fun e => ((h k hl).1.mpr e.symm).symm⟩
    | _ => simp [Literal.toValue]
  | float h =>
    cases l with
    | float k => simp only [Literal.toValue, Value.float.injEq]; exact ⟨fun e => ((h k hl).1.mp e.symm).symm, fun e => ((h k hl).1.mpr e.symm).symm⟩
    | _ => simp [Literal.toValue]
  | text h _ _ =>
    cases l with
    | text k => simp only [Literal.toValue, Value.text.injEq]; exact ⟨fun e => ((h k hl).mp e.symm).symm, fun e => ((h k hl).mpr e.symm).symm⟩
    | _ => simp [Literal.toValue]
  | bytes h _ _ =>
    cases l with
    | bytes k => simp only [Literal.toValue, Value.bytes.injEq]; exact ⟨fun e => ((h k hl).mp e.symm).symm, fun e => ((h k hl).mpr e.symm).symm⟩
    | _ => simp [Literal.toValue]
  | array _ => cases l <;> simp [Literal.toValue]
  | map _ _ => cases l <;> simp [Literal.toValue]

theorem Akin.beq {v w : Value} (h : Akin T rx v w) {l : Literal} (hl : T.lit l) : v.beq l.toValue = w.beq l.toValue := by
  rw [Bool.eq_iff_iff, Value.beq_iff, Value.beq_iff]
  exact h.lit hl

theorem Akin.prelude {v w : Value} (h : Akin T rx v w) (p : PreludeType) : validatePreludeType p v = validatePreludeType p w := by
  cases h with
  | same => rfl
  | @integer i j h _ _ =>
    cases p <;> simp only [validatePreludeType]
    · have : i ≥ 0 ↔ j ≥ 0 := by omega
      simp only [this]
    · simp only [h]
  | _ => cases p <;> rfl

theorem Akin.sizeUint {v w : Value} (h : Akin T rx v w) (ht : T.size) (z : Node × Node × Bool) :
    validateSizeUint z v = validateSizeUint z w := by
  cases h with
  | @integer i j h1 _ h3 =>
    have h3 := h3 ht
    unfold validateSizeUint
    by_cases hi : i < 0
    · simp only [if_pos hi, if_pos (h1.mp hi)]
    · have hj : ¬ j < 0 := mt h1.mpr hi
      obtain ⟨x, rfl⟩ := Int.eq_ofNat_of_zero_le (Int.not_lt.mp hi)
      obtain ⟨y, rfl⟩ := Int.eq_ofNat_of_zero_le (Int.not_lt.mp hj)
      have h3 : ∀ n : Nat, x < 256 ^ n ↔ y < 256 ^ n := fun n => by
        have e : ((256 ^ n : Nat) : Int) = (256 : Int) ^ n := by simp
        have := h3 n
        rw [← e, Int.ofNat_lt, Int.ofNat_lt] at this
        exact this
      have e : (if x = 0 then 0 else (Nat.log2 x + 1 + 7) / 8) = (if y = 0 then 0 else (Nat.log2 y + 1 + 7) / 8) := by
        have hx := minBytes_needed x
        have hy := minBytes_needed y
        generalize (if x = 0 then 0 else (Nat.log2 x + 1 + 7) / 8) = a at hx
        generalize (if y = 0 then 0 else (Nat.log2 y + 1 + 7) / 8) = b at hy
        rcases Nat.lt_trichotomy a b with h | h | h
        · have := hy.2 a h
          have := (h3 a).mp hx.1
          omega
        · exact h
        · have := hx.2 b h
          have := (h3 b).mpr hy.1
          omega
      refine bind_twin fun se _ => ?_
      simp only [if_neg hi, if_neg hj, Int.toNat_natCast, e]
      split
      · rfl
      · split
        · split
          · rfl
          · rename_i h16
            rw [shl1_bytes (by omega)]
            simp only [Res.bind, Int.ofNat_lt, h3]
        · rfl
  | _ => rfl

theorem Akin.sizeTstr {v w : Value} (h : Akin T rx v w) (ht : T.size) (z : Node × Node × Bool) :
    validateSizeTstr z v = validateSizeTstr z w := by
  cases h with
  | text _ _ h => unfold validateSizeTstr; simp only [h ht]
  | _ => rfl

theorem Akin.sizeBstr {v w : Value} (h : Akin T rx v w) (ht : T.size) (z : Node × Node × Bool) :
    validateSizeBstr z v = validateSizeBstr z w := by
  cases h with
  | bytes _ h _ => unfold validateSizeBstr; simp only [h ht]
  | _ => rfl

theorem Akin.limits {v w : Value} (h : Akin T rx v w) {k : Int} (hk : T.lit (.int k)) :
    validateLtUint k v = validateLtUint k w ∧ validateLtNint k v = validateLtNint k w ∧ validateLtInt k v = validateLtInt k w ∧
    validateLeUint k v = validateLeUint k w ∧ validateLeNint k v = validateLeNint k w ∧ validateLeInt k v = validateLeInt k w ∧
    validateGtUint k v = validateGtUint k w ∧ validateGtNint k v = validateGtNint k w ∧ validateGtInt k v = validateGtInt k w ∧
    validateGeUint k v = validateGeUint k w ∧ validateGeNint k v = validateGeNint k w ∧ validateGeInt k v = validateGeInt k w := by
  cases h with
  | @integer i j h1 h _ =>
    obtain ⟨h3, h4⟩ := h k hk
    have e1 : (i < k) = (j < k) := by rw [eq_iff_iff]; omega
    have e2 : (i ≤ k) = (j ≤ k) := by rw [eq_iff_iff]; omega
    have e3 : (i > k) = (j > k) := by rw [eq_iff_iff]; omega
    have e4 : (i ≥ k) = (j ≥ k) := by rw [eq_iff_iff]; omega
    have n1 : (i ≥ 0) = (j ≥ 0) := by rw [eq_iff_iff]; omega
    have n2 : (i < 0) = (j < 0) := by rw [eq_iff_iff]; omega
    simp only [validateLtUint, validateLtNint, validateLtInt, validateLeUint, validateLeNint, validateLeInt, validateGtUint,
      validateGtNint, validateGtInt, validateGeUint, validateGeNint, validateGeInt, n1, n2, e1, e2, e3, e4, and_self]
  | _ => exact ⟨rfl, rfl, rfl, rfl, rfl, rfl, rfl, rfl, rfl, rfl, rfl, rfl⟩

theorem Akin.range {v w : Value} (h : Akin T rx v w) {a b : Literal} (ha : T.lit a) (hb : T.lit b) (shown : String) (i : Bool) :
    rangeMatch shown a b v i = rangeMatch shown a b w i := by
  cases h with
  | @integer x y _ h _ =>
    cases a with
    | int a =>
      cases b with
      | int b =>
        obtain ⟨h1, h2⟩ := h a ha
        obtain ⟨h3, h4⟩ := h b hb
        have e1 : (x < a) = (y < a) := by rw [eq_iff_iff]; omega
        have e2 : (x ≤ b) = (y ≤ b) := by rw [eq_iff_iff]; omega
        have e3 : (x < b) = (y < b) := by rw [eq_iff_iff]; omega
        have e : checkRangeInt a b x i = checkRangeInt a b y i := by simp only [checkRangeInt, e1, e2, e3]
        simp only [rangeMatch, e]
      | _ => rfl
    | _ => cases b <;> rfl
  | @float x y h =>
    cases a with
    | float a =>
      cases b with
      | float b =>
        obtain ⟨_, h1, _⟩ := h a ha
        obtain ⟨_, h3, h4⟩ := h b hb
        have e : checkRangeFloat a b x i = checkRangeFloat a b y i := by simp only [checkRangeFloat, h1, h3, h4]
        simp only [rangeMatch, e]
      | _ => rfl
    | _ => cases b <;> rfl
  | same => rfl
  | _ => cases a <;> cases b <;> rfl

theorem Akin.regexp {env : Env} {v w : Value} (h : Akin T env.regexMatch v w) {p : String} (hp : T.pattern p) :
    validateControlRegexp env p v = validateControlRegexp env p w := by
  cases h with
  | text _ h _ => simp only [validateControlRegexp, h p hp]
  | _ => rfl

/-! ## Working copies -/

/-- Akin, and as maps are kept. -/
structure Kin (T : Probes) (rx : String → String → Bool) (v w : Value) : Prop where
  akin : Akin T rx v w
  left : v.WF
  right : w.WF

/-- Working copies of arrays. -/
def KinArr (T : Probes) (rx : String → String → Bool) (a b : WArr) : Prop :=
  All2 (Kin T rx) a.array b.array ∧ All2 (All2 (Kin T rx)) a.snaps b.snaps

/-- The pairs of two maps, with keys in the same order. -/
structure KinPool (T : Probes) (rx : String → String → Bool) (Z : Both → Prop) : Prop where
  key : ∀ z, Z z → Kin T rx z.1.1 z.2.1
  value : ∀ z, Z z → Kin T rx z.1.2 z.2.2
  order : SameOrder Z

/-- Working copies of maps: kept sorted. -/
def KinMap (Z : Both → Prop) (a b : WMap) : Prop := TwinMap Z a b ∧ VMap.PW a.map ∧ VMap.PW b.map

theorem SRel.keep {σ : Type} {R : σ → σ → Prop} {P : σ → Prop} {r r' : SRes σ} (h : SRel R r r')
    (h1 : r.Errs (fun _ => True) P) (h2 : r'.Errs (fun _ => True) P) : SRel (fun a b => R a b ∧ P a ∧ P b) r r' := by
  cases h with
  | ok h => exact .ok ⟨h, h1, h2⟩
  | err e h => exact .err e ⟨h, h1.2, h2.2⟩
  | panic => exact .panic
  | fuel => exact .fuel

theorem pw_rewind {a : WMap} (h : VMap.PW a.map) : a.rewind.Errs (fun _ => True) fun w => VMap.PW w.map := by
  unfold WMap.rewind
  split
  · trivial
  · exact h.extend _

theorem pw_commit {a : WMap} (h : VMap.PW a.map) : a.commit.Errs (fun _ => True) fun w => VMap.PW w.map := by
  unfold WMap.commit
  split
  · trivial
  · exact h

theorem pw_remove {a : WMap} (h : VMap.PW a.map) (k : Value) : (a.remove k).Errs (fun _ => True) fun w => VMap.PW w.map := by
  unfold WMap.remove
  by_cases hk : ∃ v, (k, v) ∈ a.map
  · obtain ⟨v, hv⟩ := hk
    rw [VMap.remove_some h hv]
    dsimp only
    split <;> exact h.without k
  · rw [VMap.remove_none h fun v hv => hk ⟨v, hv⟩]
    trivial

theorem wrewind_kin {Z : Both → Prop} (hZ : SameOrder Z) {a b : WMap} (h : KinMap Z a b) : SRel (KinMap Z) a.rewind b.rewind :=
  (wrewind_twin hZ h.1).keep (pw_rewind h.2.1) (pw_rewind h.2.2)

theorem wcommit_kin {Z : Both → Prop} {a b : WMap} (h : KinMap Z a b) : SRel (KinMap Z) a.commit b.commit :=
  (wcommit_twin h.1).keep (pw_commit h.2.1) (pw_commit h.2.2)

theorem wremove_kin {Z : Both → Prop} (hZ : SameOrder Z) {a b : WMap} (h : KinMap Z a b) {z : Both} (hz : Z z) :
    SRel (KinMap Z) (a.remove z.1.1) (b.remove z.2.1) :=
  (wremove_twin hZ h.1 hz).keep (pw_remove h.2.1 _) (pw_remove h.2.2 _)

theorem get_kin {Z : Both → Prop} (hZ : KinPool T rx Z) {l : Literal} (hl : T.lit l) {zs : List Both} (h : ∀ y ∈ zs, Z y)
    (h1 : VMap.PW (zs.map Prod.fst)) (h2 : VMap.PW (zs.map Prod.snd)) :
    (VMap.get (zs.map Prod.fst) l.toValue = none ∧ VMap.get (zs.map Prod.snd) l.toValue = none) ∨
    ∃ y, Z y ∧ y.1.1 = l.toValue ∧ y.2.1 = l.toValue ∧
      VMap.get (zs.map Prod.fst) l.toValue = some y.1.2 ∧ VMap.get (zs.map Prod.snd) l.toValue = some y.2.2 := by
  by_cases hy : ∃ y ∈ zs, y.1.1 = l.toValue
  · obtain ⟨y, hm, e⟩ := hy
    have e' := ((hZ.key y (h y hm)).akin.lit hl).mp e
    refine .inr ⟨y, h y hm, e, e', ?_, ?_⟩
    · rw [VMap.get_some h1, ← e]; exact List.mem_map_of_mem hm
    · rw [VMap.get_some h2, ← e']; exact List.mem_map_of_mem hm
  · refine .inl ⟨?_, ?_⟩
    · rw [VMap.get_none h1]
      intro v hv
      obtain ⟨y, hm, e⟩ := List.mem_map.mp hv
      exact hy ⟨y, hm, by rw [e]⟩
    · rw [VMap.get_none h2]
      intro v hv
      obtain ⟨y, hm, e⟩ := List.mem_map.mp hv
      exact hy ⟨y, hm, ((hZ.key y (h y hm)).akin.lit hl).mpr (by rw [e])⟩

/-! ### Arrays -/

theorem arewind_kin {a b : WArr} (h : KinArr T rx a b) : SRel (KinArr T rx) a.rewind b.rewind := by
  obtain ⟨h1, h2⟩ := h
  unfold WArr.rewind
  cases hs : a.snaps <;> cases ht : b.snaps <;> rw [hs, ht] at h2
  · exact .panic
  · cases h2
  · cases h2
  · cases h2 with
    | cons h3 h4 => exact .ok ⟨all2_append h3 h1, h4⟩

theorem acommit_kin {a b : WArr} (h : KinArr T rx a b) : SRel (KinArr T rx) a.commit b.commit := by
  obtain ⟨h1, h2⟩ := h
  unfold WArr.commit
  cases hs : a.snaps <;> cases ht : b.snaps <;> rw [hs, ht] at h2
  · exact .panic
  · cases h2
  · cases h2
  · cases h2 with
    | cons h3 h4 => exact .ok ⟨h1, h4⟩

theorem apop_kin {a b : WArr} (h : KinArr T rx a b) : SRel (KinArr T rx) a.popFront b.popFront := by
  obtain ⟨h1, h2⟩ := h
  unfold WArr.popFront
  cases ha : a.array <;> cases hb : b.array <;> rw [ha, hb] at h1
  · exact .panic
  · cases h1
  · cases h1
  · cases h1 with
    | cons h3 h4 =>
      cases hs : a.snaps <;> cases ht : b.snaps <;> rw [hs, ht] at h2
      · exact .ok ⟨h4, .nil⟩
      · cases h2
      · cases h2
      · cases h2 with
        | cons h5 h6 => exact .ok ⟨h4, .cons (all2_append h5 (.cons h3 .nil)) h6⟩

/-! ## Scopes -/

theorem madeL {l : List Node} (h : Node.MadeL T l) : ∀ n ∈ l, n.Made T := by
  induction l with
  | nil => simp
  | cons m ms ih =>
    intro n hn
    rcases List.mem_cons.mp hn with rfl | hn
    · exact h.1
    · exact ih h.2 n hn

theorem gmapFind_made {g : List (String × Node)} {s : String} {n : Node} (h : ∀ p ∈ g, p.2.Made T) (hf : gmapFind g s = some n) :
    n.Made T := by
  induction g with
  | nil => cases hf
  | cons p g ih =>
    simp only [gmapFind] at hf
    cases hr : gmapFind g s with
    | some x => rw [hr] at hf; cases hf; exact ih (fun q hq => h q (by simp [hq])) hr
    | none =>
      rw [hr] at hf
      dsimp only at hf
      split at hf
      · cases hf; exact h p (by simp)
      · cases hf

theorem lookup_made {env : Env} (he : env.Made T) {c c' : Ctx} {s : String} {as : List Node} {n : Node} (hc : c.Made T)
    (ha : ∀ m ∈ as, m.Made T) (h : c.lookupRule env s as = .ok (n, c')) : n.Made T ∧ c'.Made T := by
  have via : ((env.lookup s).bind fun rd => (c.derive rd as).bind fun c => .ok (rd.node, c)) = .ok (n, c') →
      n.Made T ∧ c'.Made T := by
    intro h
    cases hl : env.lookup s with
    | error e => rw [hl] at h; cases h
    | ok rd =>
      rw [hl] at h
      cases hd : c.derive rd as with
      | error e => simp only [Except.bind, hd] at h; cases h
      | ok d =>
        simp only [Except.bind, hd] at h
        cases h
        simp only [Ctx.derive] at hd
        split at hd
        · cases hd
        · cases hi : c.incDepth with
          | error e => rw [hi] at hd; cases hd
          | ok d =>
            rw [hi] at hd
            cases hd
            exact ⟨he s rd hl, fun p hp => ha _ (List.of_mem_zip hp).2, hc⟩
  cases c with
  | root d => exact via h
  | frame g past d =>
    simp only [Ctx.lookupRule] at h
    cases hg : gmapFind g s with
    | some m => rw [hg] at h; cases h; exact ⟨gmapFind_made hc.1 hg, hc.2⟩
    | none => rw [hg] at h; exact via h

/-! ## One step -/

/-- The recursive functions do not tell akin data apart. -/
structure KinBlind (T : Probes) (rx : String → String → Bool) (s : Rec) : Prop where
  val : ∀ {v w n c}, Kin T rx v w → n.Made T → c.Made T → s.val v n c = s.val w n c
  chf : ∀ {v w name c} {args : List Node}, Kin T rx v w → (∀ n ∈ args, n.Made T) → c.Made T →
    s.chf name args v c = s.chf name args w c
  arr : ∀ {a b n c}, KinArr T rx a b → n.Made T → c.Made T → SRel (KinArr T rx) (s.arr n a c) (s.arr n b c)
  map : ∀ {Z a b n c}, KinPool T rx Z → KinMap Z a b → n.Made T → c.Made T → SRel (KinMap Z) (s.map n a c) (s.map n b c)
  mchf : ∀ {Z a b name c} {args : List Node}, KinPool T rx Z → KinMap Z a b → (∀ n ∈ args, n.Made T) → c.Made T →
    SRel (KinMap Z) (s.mchf name args a c) (s.mchf name args b c)
  deref : ∀ {n c l}, n.Made T → c.Made T → s.deref n c = .ok l → T.lit l
  chase : ∀ {n c m}, n.Made T → c.Made T → s.chase n c = .ok m → m.Made T

theorem Kin.of_list {xs ys : List Value} (h : All2 (Akin T rx) xs ys) (hx : ∀ v ∈ xs, v.WF) (hy : ∀ v ∈ ys, v.WF) :
    All2 (Kin T rx) xs ys := by
  induction h with
  | nil => exact .nil
  | cons h _ ih =>
    simp only [List.forall_mem_cons] at hx hy
    exact .cons ⟨h, hx.1, hy.1⟩ (ih hx.2 hy.2)

/-- Akin maps have their keys in the same order. -/
theorem kinPool_of {m m' : VMap} (hk : All2 (Akin T rx) (m.map Prod.fst) (m'.map Prod.fst))
    (hv : All2 (Akin T rx) (m.map Prod.snd) (m'.map Prod.snd)) (hm : (Value.map m).WF) (hm' : (Value.map m').WF) :
    KinPool T rx (fun z => z ∈ m.zip m') ∧ TwinList (fun z => z ∈ m.zip m') m m' := by
  have hp := (VMap.sorted_iff m).mp hm.1
  have hp' := (VMap.sorted_iff m').mp hm'.1
  have hw := (Value.WFMap_iff m).mp hm.2
  have hw' := (Value.WFMap_iff m').mp hm'.2
  clear hm hm'
  induction m generalizing m' with
  | nil =>
    cases m' with
    | nil => exact ⟨⟨by simp, by simp, by simp [SameOrder]⟩, .nil⟩
    | cons => cases hk
  | cons p m ih =>
    cases m' with
    | nil => cases hk
    | cons q m' =>
      cases hk with
      | cons hk1 hk2 =>
        cases hv with
        | cons hv1 hv2 =>
          obtain ⟨hZ, zs, hz1, hz2, hz3⟩ := ih hk2 hv2 hp.tail hp'.tail (fun r hr => hw r (by simp [hr]))
            (fun r hr => hw' r (by simp [hr]))
          have w1 := hw p (by simp)
          have w2 := hw' q (by simp)
          refine ⟨⟨fun z hz => ?_, fun z hz => ?_, fun z y hz hy => ?_⟩, (p, q) :: zs, ?_, by simp [← hz2], by simp [← hz3]⟩
          · simp only [List.zip_cons_cons, List.mem_cons] at hz
            rcases hz with rfl | hz
            · exact ⟨hk1, w1.1, w2.1⟩
            · exact hZ.key z hz
          · simp only [List.zip_cons_cons, List.mem_cons] at hz
            rcases hz with rfl | hz
            · exact ⟨hv1, w1.2, w2.2⟩
            · exact hZ.value z hz
          · simp only [List.zip_cons_cons, List.mem_cons] at hz hy
            rcases hz with rfl | hz <;> rcases hy with rfl | hy
            · rw [Value.cmp_refl, Value.cmp_refl]
            · rw [hp.head (List.of_mem_zip hy).1, hp'.head (List.of_mem_zip hy).2]
            · rw [Value.cmp_gt.mpr (hp.head (List.of_mem_zip hz).1), Value.cmp_gt.mpr (hp'.head (List.of_mem_zip hz).2)]
            · exact hZ.order z y hz hy
          · simp only [List.zip_cons_cons, List.mem_cons]
            rintro z (rfl | hz)
            · exact .inl rfl
            · exact .inr (hz1 z hz)

/-- What akin data is made of. -/
theorem Akin.arrays {xs : List Value} {w : Value} (h : Akin T rx (.array xs) w) : ∃ ys, w = .array ys ∧ All2 (Akin T rx) xs ys := by
  cases h with
  | same => exact ⟨xs, rfl, All2.refl .same xs⟩
  | array h => exact ⟨_, rfl, h⟩

theorem Akin.maps {m : VMap} {w : Value} (h : Akin T rx (.map m) w) : ∃ m', w = .map m' ∧
    All2 (Akin T rx) (m.map Prod.fst) (m'.map Prod.fst) ∧ All2 (Akin T rx) (m.map Prod.snd) (m'.map Prod.snd) := by
  cases h with
  | same => exact ⟨m, rfl, All2.refl .same _, All2.refl .same _⟩
  | map h h' => exact ⟨_, rfl, h, h'⟩

theorem limitOf_made {env : Env} {op : String} {n : Node} {i : Int} (hn : n.Made T) (h : limitOf env op n = .ok i) : T.lit (.int i) := by
  cases n with
  | literal l =>
    cases l with
    | int k => simp only [limitOf, Res.ok.injEq] at h; subst h; exact hn
    | _ => cases h
  | _ => cases h

section Step
variable {env : Env} {s : Rec} (h : KinBlind T env.regexMatch s) (he : env.Made T)
include h he

omit he in
theorem control_kin {v w : Value} (ht : Kin T env.regexMatch v w) {op : CtlOp} {t a : Node} {c : Ctx} (hn : (Node.ctl op t a).Made T)
    (hc : c.Made T) : validateControl env s op t a v c = validateControl env s op t a w c := by
  have h2 := ht.akin
  cases op <;> simp only [validateControl]
  · unfold validateControlSize
    refine bind_twin fun sn _ => bind_twin fun sz _ => bind_twin fun tn _ => ?_
    split
    · exact h2.sizeUint hn _
    · exact h2.sizeTstr hn _
    · exact h2.sizeBstr hn _
    · rfl
  all_goals
    first | unfold validateControlLt | unfold validateControlLe | unfold validateControlGt | unfold validateControlGe
    refine bind_twin fun an ha => bind_twin fun i hi => bind_twin fun tn _ => ?_
    have h3 := h2.limits (limitOf_made (h.chase (n := a) hn hc ha) hi)
    split <;> first | rfl | simp only [h3]

omit he in
theorem choiceify_kin {v w : Value} (ht : Kin T env.regexMatch v w) {c : Ctx} (hc : c.Made T) {l : List Node} (hl : ∀ n ∈ l, n.Made T) :
    validateChoiceifyMembers s l v c = validateChoiceifyMembers s l w c := by
  unfold validateChoiceifyMembers
  refine choiceLoop_twin fun n hn => ?_
  have hn := hl n hn
  unfold choiceifyItem
  split
  · exact h.val ht hn.2 hc
  · exact h.chf ht (madeL hn) hc
  · exact h.val ht hn hc

theorem chf_kin {v w : Value} (ht : Kin T env.regexMatch v w) {c : Ctx} (hc : c.Made T) {name : String} {args : List Node}
    (ha : ∀ n ∈ args, n.Made T) : chfBody env s name args v c = chfBody env s name args w c := by
  unfold chfBody
  refine bind_twin fun p hp => ?_
  cases hl : c.lookupRule env name args with
  | error e => rw [hl] at hp; cases hp
  | ok q =>
    rw [hl] at hp
    cases hp
    obtain ⟨n, c'⟩ := p
    obtain ⟨h1, h2⟩ := lookup_made he hc ha hl
    dsimp only
    split
    · exact choiceify_kin h ht h2 (madeL h1)
    · exact h.chf ht (madeL h1) h2
    · rfl

theorem val_kin {v w : Value} (ht : Kin T env.regexMatch v w) {n : Node} (hn : n.Made T) {c : Ctx} (hc : c.Made T) :
    valBody env s v n c = valBody env s w n c := by
  cases n with
  | literal l =>
    simp only [valBody, validateLiteral]
    rw [ht.akin.beq hn]
  | prelude p => exact ht.akin.prelude p
  | choice l => exact choiceLoop_twin fun n hm => h.val ht (madeL hn n hm) hc
  | map l =>
    simp only [valBody]
    cases v with
    | map m =>
      obtain ⟨m', rfl, h1, h2⟩ := ht.akin.maps
      obtain ⟨hZ, hT⟩ := kinPool_of h1 h2 ht.left ht.right
      have := seqLoopS_twin (R := KinMap fun z => z ∈ m.zip m') (f := fun mem w => s.map mem w c) (g := fun mem w => s.map mem w c)
        (l := l) (a := WMap.new m) (b := WMap.new m') (fun n hm a b hab => h.map hZ hab (madeL hn n hm) hc) ⟨⟨hT, .nil⟩, (VMap.sorted_iff m).mp ht.left.1, (VMap.sorted_iff m').mp ht.right.1⟩
      simp only [validateMap]
      generalize seqLoopS (fun mem w => s.map mem w c) l (WMap.new m) = r at this ⊢
      generalize seqLoopS (fun mem w => s.map mem w c) l (WMap.new m') = r' at this ⊢
      cases this with
      | ok hab =>
        obtain ⟨⟨⟨zs, -, e1, e2⟩, -⟩, -⟩ := hab
        dsimp only
        rw [e1, e2]
        cases zs <;> rfl
      | _ => rfl
    | _ => cases ht.akin <;> rfl
  | array l =>
    simp only [valBody]
    cases v with
    | array xs =>
      obtain ⟨ys, rfl, h1⟩ := ht.akin.arrays
      have h2 := Kin.of_list h1 ((Value.WFArr_iff xs).mp ht.left) ((Value.WFArr_iff ys).mp ht.right)
      have := seqLoopS_twin (R := KinArr T env.regexMatch) (f := fun mem w => s.arr mem w c) (g := fun mem w => s.arr mem w c)
        (l := l) (a := WArr.new xs) (b := WArr.new ys) (fun n hm a b hab => h.arr hab (madeL hn n hm) hc) ⟨h2, .nil⟩
      simp only [validateArray]
      generalize seqLoopS (fun mem w => s.arr mem w c) l (WArr.new xs) = r at this ⊢
      generalize seqLoopS (fun mem w => s.arr mem w c) l (WArr.new ys) = r' at this ⊢
      cases this with
      | @ok a b hab =>
        obtain ⟨h3, -⟩ := hab
        dsimp only
        cases e1 : a.array <;> cases e2 : b.array <;> rw [e1, e2] at h3 <;> first | rfl | cases h3
      | _ => rfl
    | _ => cases ht.akin <;> rfl
  | rule name args =>
    simp only [valBody, validateRule]
    refine bind_twin fun p hp => ?_
    cases hl : c.lookupRule env name args with
    | error e => rw [hl] at hp; cases hp
    | ok q =>
      rw [hl] at hp
      cases hp
      obtain ⟨n, c'⟩ := p
      obtain ⟨h1, h2⟩ := lookup_made he hc (madeL hn) hl
      exact h.val ht h1 h2
  | group l =>
    simp only [valBody, validateStandaloneGroup]
    split
    · exact h.val ht (madeL hn _ (by simp)) hc
    · rfl
  | keyValue => rfl
  | occur => rfl
  | unwrap => rfl
  | range a b i =>
    simp only [valBody, validateRange]
    refine bind_twin fun x hx => bind_twin fun y hy => ?_
    exact ht.akin.range (h.deref hn.1 hc hx)
      (h.deref hn.2 hc hy) _ _
  | ctl op t a => exact control_kin h ht hn hc
  | ctlRegexp p => exact ht.akin.regexp hn
  | ctlCbor n =>
    cases ht.akin with
    | bytes _ _ hb => rw [hb hn.1]
    | _ => rfl
  | choiceify name args => exact h.chf ht (madeL hn) hc
  | choiceifyInline l => exact choiceify_kin h ht hc (madeL hn)

omit he in
theorem arrayValue_kin {a b : WArr} (ht : KinArr T env.regexMatch a b) {n : Node} (hn : n.Made T) {c : Ctx} (hc : c.Made T) :
    SRel (KinArr T env.regexMatch) (validateArrayValue env s n a c) (validateArrayValue env s n b c) := by
  have h0 := ht
  obtain ⟨h1, h2⟩ := ht
  unfold validateArrayValue
  cases ea : a.array with
  | nil =>
    cases eb : b.array with
    | nil => exact .err _ h0
    | cons => rw [ea, eb] at h1; cases h1
  | cons v vs =>
    cases eb : b.array with
    | nil => rw [ea, eb] at h1; cases h1
    | cons w ws =>
      rw [ea, eb] at h1
      cases h1 with
      | cons h3 h4 =>
        dsimp only
        rw [h.val h3 hn hc]
        cases s.val w n c with
        | ok u => exact apop_kin h0
        | err e => exact .err e h0
        | panic => exact .panic
        | fuel => exact .fuel

theorem arr_kin {a b : WArr} (ht : KinArr T env.regexMatch a b) {n : Node} (hn : n.Made T) {c : Ctx} (hc : c.Made T) :
    SRel (KinArr T env.regexMatch) (arrBody env s n a c) (arrBody env s n b c) := by
  cases n with
  | occur o m => exact occurLoopS_twin (fun a b hab => h.arr hab (n := m) hn hc) ht
  | keyValue k t cut => exact arrayValue_kin h ht hn.2 hc
  | rule name args =>
    simp only [arrBody]
    cases hl : c.lookupRule env name args with
    | error e => exact .err e ht
    | ok q =>
      obtain ⟨n, c'⟩ := q
      obtain ⟨h1, h2⟩ := lookup_made he hc (madeL hn) hl
      exact h.arr ht h1 h2
  | unwrap name args =>
    simp only [arrBody]
    cases hl : c.lookupRule env name args with
    | error e => exact .err e ht
    | ok q =>
      obtain ⟨n, c'⟩ := q
      obtain ⟨h1, h2⟩ := lookup_made he hc (madeL hn) hl
      dsimp only
      unfold validateArrayUnwrap
      split
      · exact seqLoopS_twin (fun n hm a b hab => h.arr hab (madeL h1 n hm) h2) ht
      · exact .err _ ht
  | choice l => exact choiceLoopS_twin (fun n hm a b hab => h.arr hab (madeL hn n hm) hc) ht
  | group l =>
    simp only [arrBody, validateArrayGroup]
    have := seqLoopS_twin (R := KinArr T env.regexMatch) (f := fun mem w => s.arr mem w c) (g := fun mem w => s.arr mem w c)
      (l := l) (a := a.snapshot) (b := b.snapshot) (fun n hm a b hab => h.arr hab (madeL hn n hm) hc) ⟨ht.1, .cons .nil ht.2⟩
    generalize seqLoopS (fun mem w => s.arr mem w c) l a.snapshot = r at this ⊢
    generalize seqLoopS (fun mem w => s.arr mem w c) l b.snapshot = r' at this ⊢
    cases this with
    | ok hab => exact acommit_kin hab
    | @err e a' b' hab =>
      have := arewind_kin hab
      dsimp only
      generalize a'.rewind = r at this ⊢
      generalize b'.rewind = r' at this ⊢
      cases this with
      | ok h => exact .err e h
      | err e h => exact .err e h
      | panic => exact .panic
      | fuel => exact .fuel
    | panic => exact .panic
    | fuel => exact .fuel
  | _ => exact arrayValue_kin h ht hn hc

omit he in
theorem mapKey_kin {Z : Both → Prop} (hZ : KinPool T env.regexMatch Z) {a b : WMap} (ht : KinMap Z a b) {n : Node} (hn : n.Made T) {c : Ctx}
    (hc : c.Made T) :
    (∃ z, Z z ∧ validateMapKey env s n a c = .ok z.1 ∧ validateMapKey env s n b c = .ok z.2) ∨
    (∃ e, validateMapKey env s n a c = .err e ∧ validateMapKey env s n b c = .err e) ∨
    (validateMapKey env s n a c = .panic ∧ validateMapKey env s n b c = .panic) ∨
    (validateMapKey env s n a c = .fuel ∧ validateMapKey env s n b c = .fuel) := by
  obtain ⟨⟨⟨zs, h1, h2, h3⟩, -⟩, p1, p2⟩ := ht
  have search : ∀ (f : Value → Res Unit) (msg : String), (∀ z, Z z → f z.1.1 = f z.2.1) → ∀ zs : List Both, (∀ z ∈ zs, Z z) →
      (∃ z, Z z ∧ mapSearchLoop f msg (zs.map Prod.fst) = .ok z.1 ∧ mapSearchLoop f msg (zs.map Prod.snd) = .ok z.2) ∨
      (∃ e, mapSearchLoop f msg (zs.map Prod.fst) = .err e ∧ mapSearchLoop f msg (zs.map Prod.snd) = .err e) ∨
      (mapSearchLoop f msg (zs.map Prod.fst) = .panic ∧ mapSearchLoop f msg (zs.map Prod.snd) = .panic) ∨
      (mapSearchLoop f msg (zs.map Prod.fst) = .fuel ∧ mapSearchLoop f msg (zs.map Prod.snd) = .fuel) := by
    intro f msg hf zs
    induction zs with
    | nil => exact fun _ => .inr (.inl ⟨_, rfl, rfl⟩)
    | cons z zs ih =>
      intro hz
      have hz0 := hz z (by simp)
      simp only [List.map_cons, mapSearchLoop, ← hf z hz0]
      cases f z.1.1 with
      | ok u => exact .inl ⟨z, hz0, rfl, rfl⟩
      | err e => exact ih fun y hy => hz y (by simp [hy])
      | panic => exact .inr (.inr (.inl ⟨rfl, rfl⟩))
      | fuel => exact .inr (.inr (.inr ⟨rfl, rfl⟩))
  cases n with
  | literal l =>
    simp only [validateMapKey, mapSearchLiteral, h2, h3]
    rcases get_kin hZ hn h1 (h2 ▸ p1) (h3 ▸ p2) with ⟨e1, e2⟩ | ⟨y, hy, k1, k2, e1, e2⟩
    · rw [e1, e2]; exact .inr (.inl ⟨_, rfl, rfl⟩)
    · rw [e1, e2]
      refine .inl ⟨y, hy, ?_, ?_⟩
      · rw [← k1]
      · rw [← k2]
  | _ =>
    simp only [validateMapKey, mapSearch, h2, h3]
    exact search _ _ (fun z hz => h.val (hZ.key z hz) hn hc) zs h1

omit he in
theorem keyvalue_kin {Z : Both → Prop} (hZ : KinPool T env.regexMatch Z) {a b : WMap} (ht : KinMap Z a b) {k t : Node} {cut : Bool}
    (hk : k.Made T) (hv : t.Made T) {c : Ctx} (hc : c.Made T) :
    SRel (KinMap Z) (validateMapKeyvalue env s k t cut a c) (validateMapKeyvalue env s k t cut b c) := by
  unfold validateMapKeyvalue
  rcases mapKey_kin h hZ ht hk hc with ⟨z, hz, e1, e2⟩ | ⟨e, e1, e2⟩ | ⟨e1, e2⟩ | ⟨e1, e2⟩
  · rw [e1, e2]
    dsimp only
    rw [h.val (hZ.value z hz) hv hc]
    cases s.val z.2.2 t c with
    | ok u => exact wremove_kin hZ.order ht hz
    | err e =>
      dsimp only
      split
      · exact .err _ ht
      · exact .err _ ht
    | panic => exact .panic
    | fuel => exact .fuel
  · rw [e1, e2]; exact .err e ht
  · rw [e1, e2]; exact .panic
  · rw [e1, e2]; exact .fuel

theorem mchf_kin {Z : Both → Prop} (hZ : KinPool T env.regexMatch Z) {a b : WMap} (ht : KinMap Z a b) {name : String} {args : List Node}
    (ha : ∀ n ∈ args, n.Made T) {c : Ctx} (hc : c.Made T) :
    SRel (KinMap Z) (mchfBody env s name args a c) (mchfBody env s name args b c) := by
  unfold mchfBody
  cases hl : c.lookupRule env name args with
  | error e => exact .err e ht
  | ok q =>
    obtain ⟨n, c'⟩ := q
    obtain ⟨h1, h2⟩ := lookup_made he hc ha hl
    dsimp only
    split
    · refine choiceLoopS_twin (fun n hm a b hab => ?_) ht
      have hn := madeL h1 n hm
      unfold mapChoiceifyItem
      split
      · exact h.map hZ hab hn.2 h2
      · exact h.mchf hZ hab (madeL hn) h2
      · exact h.map hZ hab hn h2
    · exact h.mchf hZ ht (madeL h1) h2
    · exact .err _ ht

theorem map_kin {Z : Both → Prop} (hZ : KinPool T env.regexMatch Z) {a b : WMap} (ht : KinMap Z a b) {n : Node} (hn : n.Made T) {c : Ctx}
    (hc : c.Made T) : SRel (KinMap Z) (mapBody env s n a c) (mapBody env s n b c) := by
  cases n with
  | occur o m => exact occurLoopS_twin (fun a b hab => h.map hZ hab (n := m) hn hc) ht
  | keyValue k t cut =>
    exact keyvalue_kin h hZ ht hn.1 hn.2 hc
  | rule name args =>
    simp only [mapBody]
    cases hl : c.lookupRule env name args with
    | error e => exact .err e ht
    | ok q =>
      obtain ⟨n, c'⟩ := q
      obtain ⟨h1, h2⟩ := lookup_made he hc (madeL hn) hl
      exact h.map hZ ht h1 h2
  | unwrap name args =>
    simp only [mapBody]
    cases hl : c.lookupRule env name args with
    | error e => exact .err e ht
    | ok q =>
      obtain ⟨n, c'⟩ := q
      obtain ⟨h1, h2⟩ := lookup_made he hc (madeL hn) hl
      dsimp only
      unfold validateMapUnwrap
      split
      · exact seqLoopS_twin (fun n hm a b hab => h.map hZ hab (madeL h1 n hm) h2) ht
      · exact .err _ ht
  | choice l => exact choiceLoopS_twin (fun n hm a b hab => h.map hZ hab (madeL hn n hm) hc) ht
  | choiceifyInline l => exact choiceLoopS_twin (fun n hm a b hab => h.map hZ hab (madeL hn n hm) hc) ht
  | choiceify name args => exact h.mchf hZ ht (madeL hn) hc
  | group l =>
    simp only [mapBody, validateMapGroup]
    have := seqLoopS_twin (R := KinMap Z) (f := fun mem w => s.map mem w c) (g := fun mem w => s.map mem w c)
      (l := l) (a := a.snapshot) (b := b.snapshot) (fun n hm a b hab => h.map hZ hab (madeL hn n hm) hc)
      ⟨⟨ht.1.1, .cons .nil ht.1.2⟩, ht.2⟩
    generalize seqLoopS (fun mem w => s.map mem w c) l a.snapshot = r at this ⊢
    generalize seqLoopS (fun mem w => s.map mem w c) l b.snapshot = r' at this ⊢
    cases this with
    | ok hab => exact wcommit_kin hab
    | @err e a' b' hab =>
      have := wrewind_kin hZ.order hab
      dsimp only
      generalize a'.rewind = r at this ⊢
      generalize b'.rewind = r' at this ⊢
      cases this with
      | ok h => exact .err _ h
      | err e h => exact .err e h
      | panic => exact .panic
      | fuel => exact .fuel
    | panic => exact .panic
    | fuel => exact .fuel
  | _ => exact .err _ ht

theorem step_kin : KinBlind T env.regexMatch (step env s) where
  val ht hn hc := val_kin h he ht hn hc
  chf ht ha hc := chf_kin h he ht hc ha
  arr ht hn hc := arr_kin h he ht hn hc
  map hZ ht hn hc := map_kin h he hZ ht hn hc
  mchf hZ ht ha hc := mchf_kin h he hZ ht ha hc
  deref {n c l} hn hc hd := by
    simp only [step, derefBody] at hd
    cases n with
    | literal m => cases hd; exact hn
    | rule name args =>
      dsimp only at hd
      cases hl : c.lookupRule env name args with
      | error e => rw [hl] at hd; cases hd
      | ok q =>
        rw [hl] at hd
        obtain ⟨h1, h2⟩ := lookup_made he hc (madeL hn) hl
        exact h.deref h1 h2 hd
    | _ => cases hd
  chase {n c l} hn hc hd := by
    simp only [step, chaseBody] at hd
    cases n with
    | rule name args =>
      dsimp only at hd
      cases hl : c.lookupRule env name args with
      | error e => rw [hl] at hd; cases hd
      | ok q =>
        rw [hl] at hd
        obtain ⟨h1, h2⟩ := lookup_made he hc (madeL hn) hl
        exact h.chase h1 h2 hd
    | _ => cases hd; exact hn

end Step

theorem fns_kin {env : Env} (he : env.Made T) : ∀ k, KinBlind T env.regexMatch (fns env k)
  | 0 => {
      val := fun _ _ _ => rfl, chf := fun _ _ _ => rfl, arr := fun _ _ _ => .fuel, map := fun _ _ _ _ => .fuel
      mchf := fun _ _ _ _ => .fuel, deref := (fun _ _ h => by cases h), chase := (fun _ _ h => by cases h) }
  | k + 1 => step_kin (fns_kin he k) he

end Cddl
