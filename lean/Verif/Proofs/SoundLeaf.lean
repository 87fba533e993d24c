import Verif.Proofs.SoundRec

/-! # Soundness of matching: ranges and control operators -/

namespace Cddl

theorem bind_ok {α β : Type} {a : Res α} {f : α → Res β} {b : β} (h : a.bind f = .ok b) : ∃ x, a = .ok x ∧ f x = .ok b := by
  cases a with
  | ok x => exact ⟨x, rfl, h⟩
  | err e => cases h
  | panic => cases h
  | fuel => cases h

theorem ofExcept_ok {α : Type} {x : Except Err α} {a : α} (h : Res.ofExcept x = .ok a) : x = .ok a := by
  cases x with
  | ok y => cases h; rfl
  | error e => cases h

theorem prelude_ok {p : PreludeType} {v : Value} (h : validatePreludeType p v = .ok ()) : InPrelude p v := by
  cases p <;> cases v <;> simp [validatePreludeType, InPrelude] at h ⊢ <;> omega

theorem range_ok {s : String} {a b : Literal} {v : Value} {i : Bool} (h : rangeMatch s a b v i = .ok ()) : InRange a b i v := by
  unfold rangeMatch at h
  split at h
  · rename_i a b x
    split at h
    · rename_i hc
      refine .int ?_
      unfold checkRangeInt at hc
      unfold InIntRange
      cases i <;> simp at hc ⊢ <;> omega
    · cases h
  · rename_i a b x
    split at h
    · rename_i hc
      have h1 := F64.num_lt x a
      have h2 := F64.num_lt x b
      have h3 := F64.num_lt b x
      unfold checkRangeFloat F64.lt F64.le at hc
      simp only [F64.isNaN_eq] at hc
      cases ha : a.nan
      · refine .float ?_
        unfold InFloatRange
        cases hx : x.nan <;> cases hb : b.nan <;> cases i <;> simp [ha, hx, hb] at hc h1 h2 h3 ⊢ <;>
          simp_all <;> omega
      · refine .floatNan ha ?_
        cases hx : x.nan <;> cases hb : b.nan <;> cases i <;> simp [ha, hx, hb] at hc h2 h3 ⊢ <;>
          simp_all <;> omega
    · cases h
  · split at h <;> cases h

theorem toU64_ok {i : Int} {n : Nat} (h : toU64 i = .ok n) : i = n ∧ n < 2 ^ 64 := by
  unfold toU64 at h
  split at h
  · cases h; omega
  · cases h

theorem normalize_ok {env : Env} {n : Node} {sz : Node × Node × Bool} (h : normalizeSizeRange env n = .ok sz) :
    ∃ z : SizeArg, z.Small ∧ n = z.node := by
  unfold normalizeSizeRange at h
  split at h
  · obtain ⟨k, hk, _⟩ := bind_ok h
    obtain ⟨rfl, hk'⟩ := toU64_ok hk
    exact ⟨.exactly k, hk', rfl⟩
  · rename_i start stop inc
    obtain ⟨a, ha, h⟩ := bind_ok h
    obtain ⟨b, hb, h⟩ := bind_ok h
    obtain ⟨x, hx, h⟩ := bind_ok h
    obtain ⟨y, hy, h⟩ := bind_ok h
    obtain ⟨rfl, hx'⟩ := toU64_ok hx
    obtain ⟨rfl, hy'⟩ := toU64_ok hy
    split at ha
    · cases ha
      split at hb
      · cases hb
        cases inc
        · exact ⟨.halfOpen x y, ⟨hx', hy'⟩, rfl⟩
        · exact ⟨.closed x y, ⟨hx', hy'⟩, rfl⟩
      · cases hb
    · cases ha
  · cases h

theorem sizeTstr_ok {env : Env} {z : SizeArg} (hz : z.Small) {sz : Node × Node × Bool} {v : Value}
    (h : normalizeSizeRange env z.node = .ok sz) (h' : validateSizeTstr sz v = .ok ()) : InSize .tstr z v := by
  obtain ⟨sz', lo, hi, h1, h2, h3⟩ := sizeArg_normal env z hz "tstr"
  rw [h] at h1
  cases h1
  unfold validateSizeTstr at h'
  rw [h2] at h'
  simp only [Res.bind] at h'
  split at h'
  · cases h'
  · cases v <;> simp at h'
    refine .tstr ((h3 _).mpr ?_)
    split at h'
    · cases h'
    · cases hs : sz.2.2 <;> simp [hs] at h' ⊢ <;> omega

theorem sizeBstr_ok {env : Env} {z : SizeArg} (hz : z.Small) {sz : Node × Node × Bool} {v : Value}
    (h : normalizeSizeRange env z.node = .ok sz) (h' : validateSizeBstr sz v = .ok ()) : InSize .bstr z v := by
  obtain ⟨sz', lo, hi, h1, h2, h3⟩ := sizeArg_normal env z hz "bstr"
  rw [h] at h1
  cases h1
  unfold validateSizeBstr at h'
  rw [h2] at h'
  simp only [Res.bind] at h'
  split at h'
  · cases h'
  · cases v <;> simp at h'
    refine .bstr ((h3 _).mpr ?_)
    split at h'
    · cases h'
    · cases hs : sz.2.2 <;> simp [hs] at h' ⊢ <;> omega

theorem sizeUint_ok {env : Env} {z : SizeArg} (hz : z.Small) {sz : Node × Node × Bool} {v : Value}
    (h : normalizeSizeRange env z.node = .ok sz) (h' : validateSizeUint sz v = .ok ()) : InSize .uint z v := by
  -- a size with equal ends
  have same : ∀ (n : Nat) (x : Int), ¬ x < 0 →
      (if n ≥ 16 then Res.ok () else (shl1 (n * 8)).bind fun limit =>
        if x < limit then .ok () else .err (.mismatch "uint over .size limit")) = .ok () →
      ∃ y : Nat, x = y ∧ (n < 16 → y < 256 ^ n) := by
    intro n x hx h
    obtain ⟨y, rfl⟩ : ∃ y : Nat, x = y := ⟨x.toNat, by omega⟩
    refine ⟨y, rfl, fun hn => ?_⟩
    rw [if_neg (by omega), shl1_bytes hn] at h
    simp only [Res.bind, Int.ofNat_lt] at h
    split at h
    · assumption
    · cases h
  -- the other ranges
  have other : ∀ (a b : Nat) (i : Bool) (x : Int), ¬ x < 0 →
      (if (if x.toNat = 0 then 0 else (Nat.log2 x.toNat + 1 + 7) / 8) < a then
        Res.err (.mismatch "uint under .size limit")
      else if (if i then decide ((if x.toNat = 0 then 0 else (Nat.log2 x.toNat + 1 + 7) / 8) ≤ b) else
          decide ((if x.toNat = 0 then 0 else (Nat.log2 x.toNat + 1 + 7) / 8) < b)) then Res.ok ()
      else Res.err (.mismatch "uint over .size limit")) = .ok () →
      ∃ y k : Nat, x = y ∧ MinBytes y k ∧ a ≤ k ∧ if i then k ≤ b else k < b := by
    intro a b i x hx h
    obtain ⟨y, rfl⟩ : ∃ y : Nat, x = y := ⟨x.toNat, by omega⟩
    simp only [Int.toNat_natCast] at h
    have hm := minBytes_needed y
    generalize (if y = 0 then 0 else (Nat.log2 y + 1 + 7) / 8) = k at hm h
    refine ⟨y, k, rfl, hm, ?_⟩
    split at h
    · cases h
    · cases i <;> simp at h ⊢ <;> omega
  obtain ⟨sz', lo, hi, h1, h2, h3⟩ := sizeArg_normal env z hz "uint"
  rw [h] at h1
  cases h1
  unfold validateSizeUint at h'
  rw [h2] at h'
  simp only [Res.bind] at h'
  split at h'
  · cases h'
  rename_i hne
  cases v <;> simp only [reduceCtorEq] at h'
  rename_i x
  split at h'
  · cases h'
  rename_i hx
  cases z with
  | exactly n =>
    have hn : n < 2 ^ 64 := hz
    simp only [SizeArg.node, normalizeSizeRange, toU64_nat hn, Res.bind, Res.ok.injEq] at h
    subst h
    simp only [sizeEndpoints, toU64_nat hn, Res.bind, Res.ok.injEq, Prod.mk.injEq] at h2
    obtain ⟨rfl, rfl⟩ := h2
    rw [if_pos ⟨rfl, rfl⟩] at h'
    obtain ⟨y, rfl, hy⟩ := same _ _ hx h'
    exact .uint hy
  | closed a b =>
    simp only [SizeArg.node, normalizeSizeRange, toU64_nat hz.1, toU64_nat hz.2, Res.bind, Res.ok.injEq] at h
    subst h
    simp only [sizeEndpoints, toU64_nat hz.1, toU64_nat hz.2, Res.bind, Res.ok.injEq, Prod.mk.injEq] at h2
    obtain ⟨rfl, rfl⟩ := h2
    split at h'
    · rename_i hab
      obtain ⟨rfl, _⟩ := hab
      obtain ⟨y, rfl, hy⟩ := same _ _ hx h'
      exact .uintSame hy
    · obtain ⟨y, k, rfl, hm, h4⟩ := other _ _ _ _ hx h'
      exact .uintRange hm ((h3 _).mpr h4) (by intro n h; cases h)
  | halfOpen a b =>
    simp only [SizeArg.node, normalizeSizeRange, toU64_nat hz.1, toU64_nat hz.2, Res.bind, Res.ok.injEq] at h
    subst h
    simp only [sizeEndpoints, toU64_nat hz.1, toU64_nat hz.2, Res.bind, Res.ok.injEq, Prod.mk.injEq] at h2
    obtain ⟨rfl, rfl⟩ := h2
    split at h'
    · rename_i hab
      cases hab.2
    · obtain ⟨y, k, rfl, hm, h4⟩ := other _ _ _ _ hx h'
      exact .uintRange hm ((h3 _).mpr h4) (by intro n h; cases h)

theorem limitOf_ok {env : Env} {s : String} {n : Node} {k : Int} (h : limitOf env s n = .ok k) : n = .literal (.int k) := by
  unfold limitOf at h
  split at h
  · cases h; rfl
  · cases h

theorem control_ok {env : Env} {r : Rec} (hch : ∀ n c n', r.chase n c = .ok n' → Reaches env c.scope n n')
    {op : CtlOp} {t a : Node} {v : Value} {c : Ctx} (h : validateControl env r op t a v c = .ok ()) :
    Sat env c.scope (.ctl op t a) v := by
  have cmp : ∀ {p : PreludeType} {k : Int} {op : CtlOp} {arg tn : Node}, r.chase a c = .ok arg → arg = .literal (.int k) →
      r.chase t c = .ok tn → tn = .prelude p → (∃ x, v = .integer x ∧ InIntType p x ∧ Compares op x k) →
      Sat env c.scope (.ctl op t a) v := by
    rintro p k op arg tn h1 rfl h2 rfl ⟨x, rfl, h3, h4⟩
    exact .compare (hch _ _ _ h2) (hch _ _ _ h1) h3 h4
  cases op <;> simp only [validateControl, validateControlLt, validateControlLe, validateControlGt, validateControlGe,
    validateControlSize] at h
  case size =>
    obtain ⟨arg, h1, h⟩ := bind_ok h
    obtain ⟨sz, h2, h⟩ := bind_ok h
    obtain ⟨tn, h3, h⟩ := bind_ok h
    obtain ⟨z, hz, hn⟩ := normalize_ok h2
    rw [hn] at h1 h2
    split at h
    · exact .size (hch _ _ _ h3) (hch _ _ _ h1) (sizeUint_ok hz h2 h)
    · exact .size (hch _ _ _ h3) (hch _ _ _ h1) (sizeTstr_ok hz h2 h)
    · exact .size (hch _ _ _ h3) (hch _ _ _ h1) (sizeBstr_ok hz h2 h)
    · cases h
  all_goals
    obtain ⟨arg, h1, h⟩ := bind_ok h
    obtain ⟨k, h2, h⟩ := bind_ok h
    obtain ⟨tn, h3, h⟩ := bind_ok h
    have h2 := limitOf_ok h2
    split at h
    · refine cmp h1 h2 h3 rfl ?_
      cases v <;> simp only [validateLtUint, validateLeUint, validateGtUint, validateGeUint, reduceCtorEq] at h
      refine ⟨_, rfl, ?_⟩
      simp only [InIntType, Compares]
      split at h <;> simp at h
      omega
    · refine cmp h1 h2 h3 rfl ?_
      cases v <;> simp only [validateLtNint, validateLeNint, validateGtNint, validateGeNint, reduceCtorEq] at h
      refine ⟨_, rfl, ?_⟩
      simp only [InIntType, Compares]
      split at h <;> simp at h
      omega
    · refine cmp h1 h2 h3 rfl ?_
      cases v <;> simp only [validateLtInt, validateLeInt, validateGtInt, validateGeInt, reduceCtorEq] at h
      refine ⟨_, rfl, ?_⟩
      simp only [InIntType, Compares]
      simp at h
      exact ⟨trivial, by omega⟩
    · cases h
    · cases h

end Cddl
