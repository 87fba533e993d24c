import Verif.Spec.ValueOrder
import Verif.Proofs.Float
import Verif.Proofs.Order

/-! # The comparison of the model is the order of Spec/ValueOrder.lean -/

namespace Cddl

theorem F64.ordKey_lt (f g : F64) : f.ordKey < g.ordKey ↔ F64.Before f g := by
  have hn := F64.num_lt f g
  have hf := f.bits.toNat_lt
  have hg := g.bits.toNat_lt
  have hff : f.fraction < 2 ^ 52 := Nat.mod_lt _ (by decide)
  have hgf : g.fraction < 2 ^ 52 := Nat.mod_lt _ (by decide)
  have hfe : f.exponent < 2 ^ 11 := Nat.mod_lt _ (by decide)
  have hge : g.exponent < 2 ^ 11 := Nat.mod_lt _ (by decide)
  have mf := F64.mag_eq f
  have mg := F64.mag_eq g
  have nf : f.nan = true ↔ f.exponent = 2047 ∧ f.fraction ≠ 0 := by simp [F64.nan]
  have ng : g.nan = true ↔ g.exponent = 2047 ∧ g.fraction ≠ 0 := by simp [F64.nan]
  have sf : f.neg = f.negative := by
    unfold F64.neg F64.negative; rw [Bool.eq_iff_iff]; simp only [decide_eq_true_eq, beq_iff_eq]; omega
  have sg : g.neg = g.negative := by
    unfold F64.neg F64.negative; rw [Bool.eq_iff_iff]; simp only [decide_eq_true_eq, beq_iff_eq]; omega
  have zf : f.num = 0 ↔ f.mag = 0 := by
    have := magNum_zero (a := f.mag)
    rw [F64.num_eq]; split <;> omega
  have zg : g.num = 0 ↔ g.mag = 0 := by
    have := magNum_zero (a := g.mag)
    rw [F64.num_eq]; split <;> omega
  have bf : f.mag = if f.negative then f.bits.toNat - 2 ^ 63 else f.bits.toNat := by rw [← sf]; rfl
  have bg : g.mag = if g.negative then g.bits.toNat - 2 ^ 63 else g.bits.toNat := by rw [← sg]; rfl
  have lf : f.negative = true ↔ 2 ^ 63 ≤ f.bits.toNat := by rw [← sf]; simp [F64.neg]
  have lg : g.negative = true ↔ 2 ^ 63 ≤ g.bits.toNat := by rw [← sg]; simp [F64.neg]
  have kf : f.key = if f.negative then - (f.mag : Int) else (f.mag : Int) := by rw [← sf]; rfl
  have kg : g.key = if g.negative then - (g.mag : Int) else (g.mag : Int) := by rw [← sg]; rfl
  have of : f.ordKey = if f.negative then 2 ^ 64 - 1 - f.bits.toNat else f.bits.toNat + 2 ^ 63 := by rw [← sf]; rfl
  have og : g.ordKey = if g.negative then 2 ^ 64 - 1 - g.bits.toNat else g.bits.toNat + 2 ^ 63 := by rw [← sg]; rfl
  rw [of, og]
  constructor
  · intro h
    cases hnf : f.nan <;> cases hng : g.nan <;> cases hsf : f.negative <;> cases hsg : g.negative <;>
      simp only [hnf, hng, hsf, hsg, if_true, if_false, Bool.false_eq_true, false_iff, true_iff] at h nf ng bf bg lf lg kf kg <;>
      first
      | exact .first hnf hsf (.inl hng)
      | exact .first hnf hsf (.inr hsg)
      | exact .last hng hsg (.inl hnf)
      | exact .last hng hsg (.inr hsf)
      | exact .outer hnf hng hsf hsg (by omega)
      | exact .inner hnf hng hsf hsg (by omega)
      | exact .number hnf hng (by omega)
      | exact absurd h (by omega)
      | (by_cases hz : f.mag = 0 ∧ g.mag = 0
         · exact .zero hnf hng (zf.mpr hz.1) (zg.mpr hz.2) hsf hsg
         · exact .number hnf hng (by omega))
  · intro h
    cases h with
    | number h1 h2 h3 =>
      have h3 := hn.mp h3
      simp only [h1, h2, Bool.false_eq_true, false_iff] at nf ng
      cases hsf : f.negative <;> cases hsg : g.negative <;>
        simp only [hsf, hsg, if_true, if_false, Bool.false_eq_true, false_iff, true_iff] at bf bg lf lg kf kg ⊢ <;> omega
    | zero _ _ _ _ h5 h6 =>
      simp only [h5, h6, if_true, if_false, Bool.false_eq_true, false_iff, true_iff] at bf bg lf lg kf kg ⊢; omega
    | first h1 h2 h3 =>
      cases hng : g.nan <;> cases hsg : g.negative <;>
        simp only [h1, h2, hng, hsg, if_true, if_false, Bool.false_eq_true, false_iff, true_iff, or_self, reduceCtorEq] at h3 nf ng bf bg lf lg kf kg ⊢ <;> omega
    | last h1 h2 h3 =>
      cases hnf : f.nan <;> cases hsf : f.negative <;>
        simp only [h1, h2, hnf, hsf, if_true, if_false, Bool.false_eq_true, false_iff, true_iff, or_self, reduceCtorEq] at h3 nf ng bf bg lf lg kf kg ⊢ <;> omega
    | outer h1 h2 h3 h4 h5 =>
      simp only [h1, h2, h3, h4, if_true, if_false, Bool.false_eq_true, false_iff, true_iff] at nf ng bf bg lf lg kf kg ⊢; omega
    | inner h1 h2 h3 h4 h5 =>
      simp only [h1, h2, h3, h4, if_true, if_false, Bool.false_eq_true, false_iff, true_iff] at nf ng bf bg lf lg kf kg ⊢; omega

/-! ## Lists -/

theorem cmpList_lt {α : Type} {c : α → α → Ordering} {r : α → α → Prop} (h1 : ∀ a b, c a b = .lt ↔ r a b)
    (h2 : ∀ a b, c a b = .eq ↔ a = b) : ∀ as bs : List α, cmpList c as bs = .lt ↔ List.Lex r as bs
  | [], [] => by simp [cmpList]
  | [], _ :: _ => by simp only [cmpList, true_iff]; exact .nil
  | _ :: _, [] => by simp only [cmpList, reduceCtorEq, false_iff]; nofun
  | a :: as, b :: bs => by
    have ih := cmpList_lt h1 h2 as bs
    simp only [cmpList]
    cases hc : c a b with
    | lt => exact iff_of_true rfl (.rel ((h1 _ _).mp hc))
    | eq =>
      have := (h2 _ _).mp hc
      subst this
      refine ih.trans ⟨.cons, fun h => ?_⟩
      cases h with
      | cons h => exact h
      | rel h => rw [(h1 _ _).mpr h] at hc; cases hc
    | gt =>
      refine iff_of_false nofun fun h => ?_
      cases h with
      | cons h => rw [(h2 _ _).mpr rfl] at hc; cases hc
      | rel h => rw [(h1 _ _).mpr h] at hc; cases hc

theorem compare_nat_lt (a b : Nat) : compare a b = .lt ↔ a < b := by
  rw [Nat.compare_eq_lt]

/-! ## UTF-8 -/

theorem byte_lt {a b : Nat} (h : a < b) (hb : b < 256) : UInt8.ofNat a < UInt8.ofNat b := by
  rw [UInt8.lt_iff_toNat_lt, UInt8.toNat_ofNat', UInt8.toNat_ofNat']
  omega

theorem lex_byte {a b : Nat} {s t : List UInt8} (hb : b < 256) (h : a < b ∨ (a = b ∧ List.Lex (· < ·) s t)) :
    List.Lex (· < ·) (UInt8.ofNat a :: s) (UInt8.ofNat b :: t) := by
  rcases h with h | ⟨rfl, h⟩
  · exact .rel (byte_lt h hb)
  · exact .cons h

theorem utf8_lt {c d : Char} (h : c.toNat < d.toNat) (s t : List UInt8) :
    List.Lex (· < ·) (String.utf8EncodeChar c ++ s) (String.utf8EncodeChar d ++ t) := by
  have hc : d.toNat < 0x110000 := by
    have := d.valid
    unfold UInt32.isValidChar Nat.isValidChar at this
    show d.val.toNat < _
    omega
  unfold Char.toNat at h hc
  unfold String.utf8EncodeChar
  generalize c.val.toNat = v at *
  generalize d.val.toNat = w at *
  dsimp only
  have h1 : v / 64 < w / 64 ∨ v / 64 = w / 64 := by omega
  have h2 : v / 4096 < w / 4096 ∨ v / 4096 = w / 4096 := by omega
  have h3 : v / 262144 < w / 262144 ∨ v / 262144 = w / 262144 := by omega
  rcases h1 with h1 | h1 <;> rcases h2 with h2 | h2 <;> rcases h3 with h3 | h3 <;>
    split <;> (try split) <;> (try split) <;> (try split) <;> (try split) <;> (try split) <;>
    simp only [List.cons_append, List.nil_append] <;>
    first
    | omega
    | exact lex_byte (by omega) (.inl (by omega))
    | exact lex_byte (by omega) (.inr ⟨by omega, lex_byte (by omega) (.inl (by omega))⟩)
    | exact lex_byte (by omega) (.inr ⟨by omega, lex_byte (by omega) (.inr ⟨by omega, lex_byte (by omega) (.inl (by omega))⟩)⟩)
    | exact lex_byte (by omega) (.inr ⟨by omega, lex_byte (by omega) (.inr ⟨by omega, lex_byte (by omega) (.inr ⟨by omega,
        lex_byte (by omega) (.inl (by omega))⟩)⟩)⟩)

theorem utf8_bytes (s : String) : s.toUTF8.data.toList = s.toList.flatMap String.utf8EncodeChar := by
  rw [String.toUTF8_eq_toByteArray, ← String.utf8Encode_toList, List.utf8Encode]
  simp

theorem lex_utf8 : ∀ {a b : List Char}, List.Lex (fun c d : Char => c.toNat < d.toNat) a b →
    List.Lex (· < ·) (a.flatMap String.utf8EncodeChar) (b.flatMap String.utf8EncodeChar)
  | _, _, .nil (a := c) => by
    rw [List.flatMap_cons]
    cases h : String.utf8EncodeChar c with
    | nil => exact absurd h String.utf8EncodeChar_ne_nil
    | cons _ _ => exact .nil
  | _, _, .rel h => by
    rw [List.flatMap_cons, List.flatMap_cons]
    exact utf8_lt h _ _
  | _, _, .cons (a := c) h => by
    have ih := lex_utf8 h
    rw [List.flatMap_cons, List.flatMap_cons]
    induction String.utf8EncodeChar c with
    | nil => exact ih
    | cons _ _ ih => exact .cons ih

theorem cmpString_lt (a b : String) :
    cmpString a b = .lt ↔ List.Lex (· < ·) a.toUTF8.data.toList b.toUTF8.data.toList := by
  have key : ∀ a b, cmpString a b = .lt → List.Lex (· < ·) a.toUTF8.data.toList b.toUTF8.data.toList := by
    intro a b h
    rw [utf8_bytes, utf8_bytes]
    exact lex_utf8 ((cmpList_lt (r := fun c d : Char => c.toNat < d.toNat) (fun _ _ => compare_nat_lt _ _) lawful_charCmp.eq_iff _ _).mp h)
  refine ⟨key a b, fun h => ?_⟩
  cases hc : cmpString a b with
  | lt => rfl
  | eq =>
    have := (lawful_cmpString.eq_iff _ _).mp hc
    subst this
    exact absurd h (List.lt_irrefl (α := UInt8) _)
  | gt =>
    have h' : cmpString b a = .lt := by
      have := lawful_cmpString.swap a b
      rw [hc] at this
      exact this.symm
    exact absurd (List.lt_trans (α := UInt8) h (key _ _ h')) (List.lt_irrefl (α := UInt8) _)

theorem then_lt (a b : Ordering) : a.then b = .lt ↔ a = .lt ∨ (a = .eq ∧ b = .lt) := by
  cases a <;> simp

theorem lex_cons_iff {α : Type} {r : α → α → Prop} {a b : α} {as bs : List α} :
    List.Lex r (a :: as) (b :: bs) ↔ r a b ∨ (a = b ∧ List.Lex r as bs) := by
  constructor
  · intro h
    cases h with
    | rel h => exact .inl h
    | cons h => exact .inr ⟨rfl, h⟩
  · rintro (h | ⟨rfl, h⟩)
    · exact .rel h
    · exact .cons h

theorem pair_before_iff {k v k' v' : Value} :
    PairBefore (k, v) (k', v') ↔ Value.Before k k' ∨ (k = k' ∧ Value.Before v v') := by
  constructor
  · intro h
    cases h with
    | key h => exact .inl h
    | value h => exact .inr ⟨rfl, h⟩
  · rintro (h | ⟨rfl, h⟩)
    · exact .key h
    · exact .value h

theorem before_kind {a b : Value} (h : a.rank ≠ b.rank) : Value.Before a b ↔ a.rank < b.rank := by
  refine ⟨fun hb => ?_, .kind⟩
  cases hb with
  | kind h => exact h
  | _ => exact absurd rfl h

theorem cmp_kind {a b : Value} (h : a.rank ≠ b.rank) : Value.cmp a b = .lt ↔ a.rank < b.rank := by
  have hc : Value.cmp a b = compare a.tag b.tag := by
    cases a <;> cases b <;> first
      | exact absurd rfl h
      | rfl
  have ht : ∀ a : Value, a.rank = a.tag + 1 := fun a => by cases a <;> rfl
  rw [hc, compare_nat_lt, ht, ht]
  omega

mutual
theorem Value.cmp_lt : ∀ a b : Value, Value.cmp a b = .lt ↔ Value.Before a b := by
  intro a b
  by_cases hr : a.rank = b.rank
  case neg => exact (cmp_kind hr).trans (before_kind hr).symm
  cases a <;> cases b <;> first
    | (simp only [Value.rank] at hr; omega)
    | clear hr
  · exact iff_of_false (by decide) (by intro h; cases h with | kind h => exact absurd h (Nat.lt_irrefl _))
  · rename_i x y
    cases x <;> cases y <;> first
      | exact iff_of_true (by decide) .bool
      | exact iff_of_false (by decide) (by intro h; cases h with | kind h => exact absurd h (Nat.lt_irrefl _))
  · rw [Value.cmp, intCmp_lt]
    exact ⟨.integer, fun h => by cases h with | integer h => exact h | kind h => exact absurd h (Nat.lt_irrefl _)⟩
  · rw [Value.cmp, compare_nat_lt, F64.ordKey_lt]
    exact ⟨.float, fun h => by cases h with | float h => exact h | kind h => exact absurd h (Nat.lt_irrefl _)⟩
  · rw [Value.cmp, cmpList_lt (r := (· < ·)) (fun a b => (compare_nat_lt _ _).trans UInt8.lt_iff_toNat_lt.symm) lawful_byteCmp.eq_iff]
    exact ⟨.bytes, fun h => by cases h with | bytes h => exact h | kind h => exact absurd h (Nat.lt_irrefl _)⟩
  · rw [Value.cmp, cmpString_lt]
    exact ⟨.text, fun h => by cases h with | text h => exact h | kind h => exact absurd h (Nat.lt_irrefl _)⟩
  · rw [Value.cmp, Value.cmpArr_lt]
    exact ⟨.array, fun h => by cases h with | array h => exact h | kind h => exact absurd h (Nat.lt_irrefl _)⟩
  · rw [Value.cmp, Value.cmpMap_lt]
    exact ⟨.map, fun h => by cases h with | map h => exact h | kind h => exact absurd h (Nat.lt_irrefl _)⟩
theorem Value.cmpArr_lt : ∀ a b : List Value, Value.cmpArr a b = .lt ↔ List.Lex Value.Before a b
  | [], [] => by simp [Value.cmpArr]
  | [], _ :: _ => by simp only [Value.cmpArr, true_iff]; exact .nil
  | _ :: _, [] => by simp only [Value.cmpArr, reduceCtorEq, false_iff]; nofun
  | x :: xs, y :: ys => by
    rw [Value.cmpArr, then_lt, lex_cons_iff, Value.cmp_lt x y, Value.cmp_eq x y, Value.cmpArr_lt xs ys]
theorem Value.cmpMap_lt : ∀ a b : List (Value × Value), Value.cmpMap a b = .lt ↔ List.Lex PairBefore a b
  | [], [] => by simp [Value.cmpMap]
  | [], _ :: _ => by simp only [Value.cmpMap, true_iff]; exact .nil
  | _ :: _, [] => by simp only [Value.cmpMap, reduceCtorEq, false_iff]; nofun
  | (k, v) :: xs, (k', v') :: ys => by
    rw [Value.cmpMap, then_lt, then_lt, lex_cons_iff, pair_before_iff, Value.cmp_lt k k', Value.cmp_lt v v',
      Value.cmpMap_lt xs ys, ← Value.cmp_eq k k', Prod.mk.injEq, ← Value.cmp_eq k k', ← Value.cmp_eq v v']
    cases Value.cmp k k' <;> simp
end

end Cddl
