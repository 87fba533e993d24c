import Verif.Proofs.PredictCalm

/-! # Predictive schemas: names, ranges and control operators find what they describe -/

namespace Cddl

/-- No error other than a fatal one. -/
def Res.Fine {α : Type} (r : Res α) : Prop := ∀ e, r = .err e → e.isFatal = true

/-- No error other than a fatal one, and the working copy is left as said. -/
def SRes.Fine {σ : Type} (Q : σ → Prop) : SRes σ → Prop
  | .ok w => Q w
  | .err e _ => e.isFatal = true
  | _ => True

theorem Res.fine_ok {α : Type} {a : α} : (Res.ok a).Fine := fun _ h => by cases h

theorem Res.fine_err {α : Type} {e : Err} (h : e.isFatal = true) : (Res.err e : Res α).Fine := fun _ h' => by cases h'; exact h

theorem Res.fine_bind {α β : Type} {a : Res α} {f : α → Res β} (ha : a.Fine) (hf : ∀ x, a = .ok x → (f x).Fine) : (a.bind f).Fine := by
  cases a with
  | ok x => exact hf x rfl
  | err e => exact Res.fine_err (ha e rfl)
  | panic => exact fun e h => by cases h
  | fuel => exact fun e h => by cases h

theorem gmapFind_fresh {s : String} : ∀ {g : List (String × Node)}, (∀ p ∈ g, p.1 ≠ s) → gmapFind g s = none
  | [], _ => rfl
  | (k, a) :: g, h => by
    simp only [gmapFind]
    rw [gmapFind_fresh fun p hp => h p (List.mem_cons_of_mem _ hp)]
    exact if_neg (h (k, a) List.mem_cons_self)

theorem bound_gmapFind {g : List (String × Node)} {s : String} {n : Node} (h : BoundTo g s n) : gmapFind g s = some n := by
  obtain ⟨pre, post, rfl, hp⟩ := h
  induction pre with
  | nil =>
    simp only [List.nil_append, gmapFind, gmapFind_fresh hp, if_true]
  | cons p pre ih =>
    obtain ⟨k, a⟩ := p
    simp only [List.cons_append, gmapFind, ih]

/-- Looking up a name finds what it stands for, unless the recursion limit is hit. -/
theorem look_complete {env : Env} {c : Ctx} {sc' : Scope} {s : String} {as : List Node} {n : Node}
    (h : Resolves env c.scope s as n sc') :
    (∃ c', c.lookupRule env s as = .ok (n, c') ∧ c'.scope = sc') ∨
      ∃ e, c.lookupRule env s as = .error e ∧ e.isFatal = true := by
  have via : ∀ {d : RuleDef}, env.lookup s = .ok d → d.params.length = as.length →
      (((env.lookup s).bind fun rd => (c.derive rd as).bind fun c => .ok (rd.node, c)) =
        (.ok (d.node, .frame (d.params.zip as) c (c.depth + 1)) : Except Err (Node × Ctx))) ∨
      ∃ e, ((env.lookup s).bind fun rd => (c.derive rd as).bind fun c => .ok (rd.node, c)) =
        (.error e : Except Err (Node × Ctx)) ∧ e.isFatal = true := by
    intro d hd hlen
    simp only [hd, Except.bind, Ctx.derive, Ctx.incDepth]
    by_cases hdep : c.depth ≥ maxDepth
    · right
      simp only [hlen, ne_eq, not_true_eq_false, if_false, hdep, if_true]
      exact ⟨_, rfl, rfl⟩
    · left
      simp only [hlen, ne_eq, not_true_eq_false, if_false, hdep]
  generalize hsc : c.scope = sc at h
  cases h with
  | arg _ hb =>
    cases c with
    | root d => cases hsc
    | frame g past d =>
      simp only [Ctx.scope, Scope.frame.injEq] at hsc
      obtain ⟨rfl, rfl⟩ := hsc
      left
      simp only [Ctx.lookupRule, bound_gmapFind hb]
      exact ⟨past, rfl, rfl⟩
  | atTop hd hlen =>
    cases c with
    | root d =>
      rcases via hd hlen with h | h
      · exact .inl ⟨_, h, rfl⟩
      · exact .inr h
    | frame g past d => cases hsc
  | inRule hb hd hlen =>
    cases c with
    | root d => cases hsc
    | frame g past d =>
      simp only [Ctx.scope, Scope.frame.injEq] at hsc
      obtain ⟨rfl, rfl⟩ := hsc
      have hg : gmapFind g s = none := by
        cases hg : gmapFind g s with
        | none => rfl
        | some m => exact absurd (gmapFind_bound hg) (hb m)
      simp only [Ctx.lookupRule, hg]
      rcases via hd hlen with h | h
      · exact .inl ⟨_, h, rfl⟩
      · exact .inr h

theorem chase_complete {env : Env} {sc : Scope} {n n' : Node} (h : Reaches env sc n n') : ∀ c : Ctx, c.scope = sc →
    (lim env).chase n c = .ok n' ∨ ∃ e, (lim env).chase n c = .err e ∧ e.isFatal = true := by
  induction h with
  | @here _ n hn =>
    intro c _
    left
    rw [chase_eq]
    cases n <;> first | rfl | exact absurd (Eq.refl _) (hn _ _)
  | rule hr _ ih =>
    rintro c rfl
    rw [chase_eq]
    simp only [chaseBody]
    rcases look_complete hr with ⟨c', h, hc'⟩ | ⟨e, h, he⟩
    · rw [h]; exact ih c' hc'
    · rw [h]; exact .inr ⟨e, rfl, he⟩

theorem deref_complete {env : Env} {sc : Scope} {n : Node} {l : Literal} (h : Reaches env sc n (.literal l)) :
    ∀ c : Ctx, c.scope = sc → (lim env).deref n c = .ok l ∨ ∃ e, (lim env).deref n c = .err e ∧ e.isFatal = true := by
  generalize hn : Node.literal l = n' at h
  induction h with
  | here _ =>
    intro c _
    left
    rw [deref_eq, ← hn]
    rfl
  | rule hr _ ih =>
    rintro c rfl
    rw [deref_eq]
    simp only [derefBody]
    rcases look_complete hr with ⟨c', h, hc'⟩ | ⟨e, h, he⟩
    · rw [h]; exact ih hn c' hc'
    · rw [h]; exact .inr ⟨e, rfl, he⟩

theorem prelude_complete {p : PreludeType} {v : Value} (h : InPrelude p v) : validatePreludeType p v = .ok () := by
  cases p <;> cases v <;> simp [validatePreludeType, InPrelude] at h ⊢ <;> omega

theorem range_complete {s : String} {a b : Literal} {v : Value} {i : Bool} (h : InRange a b i v) : rangeMatch s a b v i = .ok () := by
  cases h with
  | @int a b _ x h =>
    have : checkRangeInt a b x i = true := by
      unfold InIntRange at h
      unfold checkRangeInt
      cases i <;> simp at h ⊢ <;> omega
    simp only [rangeMatch, this, if_true]
  | @float a b _ x h =>
    have : checkRangeFloat a b x i = true := by
      have h1 := F64.num_lt x a
      have h2 := F64.num_lt x b
      have h3 := F64.num_lt b x
      unfold InFloatRange at h
      unfold checkRangeFloat F64.lt F64.le
      simp only [F64.isNaN_eq]
      cases ha : a.nan <;> cases hx : x.nan <;> cases hb : b.nan <;> cases i <;>
        simp [hx, hb] at h h1 h2 h3 ⊢ <;> (try simp_all) <;> omega
    simp only [rangeMatch, this, if_true]
  | @floatNan a b _ x ha h =>
    have : checkRangeFloat a b x i = true := by
      have h2 := F64.num_lt x b
      have h3 := F64.num_lt b x
      unfold checkRangeFloat F64.lt F64.le
      simp only [F64.isNaN_eq]
      cases hx : x.nan <;> cases hb : b.nan <;> cases i <;> simp [ha, hx, hb] at h h2 h3 ⊢ <;> (try simp_all) <;> omega
    simp only [rangeMatch, this, if_true]

theorem normalize_fine {env : Env} (z : SizeArg) : (normalizeSizeRange env z.node).Fine := by
  have u : ∀ i : Int, (toU64 i).Fine := by
    intro i
    unfold toU64
    split
    · exact Res.fine_ok
    · exact Res.fine_err rfl
  cases z <;> simp only [SizeArg.node, normalizeSizeRange]
  · exact Res.fine_bind (u _) fun _ _ => Res.fine_ok
  all_goals
    exact Res.fine_bind Res.fine_ok fun _ h => Res.fine_bind Res.fine_ok fun _ h' => Res.fine_bind (u _) fun _ _ =>
      Res.fine_bind (u _) fun _ _ => Res.fine_ok

theorem size_small {env : Env} {z : SizeArg} {sz : Node × Node × Bool} (h : normalizeSizeRange env z.node = .ok sz) : z.Small := by
  obtain ⟨z', hz, hn⟩ := normalize_ok h
  cases z <;> cases z' <;> simp only [SizeArg.node, Node.literal.injEq, Literal.int.injEq, Node.range.injEq,
    reduceCtorEq, Int.natCast_inj, and_true, and_false] at hn
  · rw [← hn] at hz; exact hz
  · rw [← hn.1, ← hn.2] at hz; exact hz
  · rw [← hn.1, ← hn.2] at hz; exact hz

theorem sizeTstr_complete {env : Env} {z : SizeArg} {sz : Node × Node × Bool} {v : Value}
    (h : normalizeSizeRange env z.node = .ok sz) (h' : InSize .tstr z v) : validateSizeTstr sz v = .ok () := by
  obtain ⟨sz', lo, hi, h1, h2, h3⟩ := sizeArg_normal env z (size_small h) "tstr"
  rw [h] at h1
  cases h1
  cases h' with
  | tstr ha =>
    have := (h3 _).mp ha
    unfold validateSizeTstr
    rw [h2]
    simp only [Res.bind]
    rw [if_neg, if_neg, if_pos]
    all_goals cases hs : sz.2.2 <;> simp [hs] at this ⊢ <;> omega

theorem sizeBstr_complete {env : Env} {z : SizeArg} {sz : Node × Node × Bool} {v : Value}
    (h : normalizeSizeRange env z.node = .ok sz) (h' : InSize .bstr z v) : validateSizeBstr sz v = .ok () := by
  obtain ⟨sz', lo, hi, h1, h2, h3⟩ := sizeArg_normal env z (size_small h) "bstr"
  rw [h] at h1
  cases h1
  cases h' with
  | bstr ha =>
    have := (h3 _).mp ha
    unfold validateSizeBstr
    rw [h2]
    simp only [Res.bind]
    rw [if_neg, if_neg, if_pos]
    all_goals cases hs : sz.2.2 <;> simp [hs] at this ⊢ <;> omega

theorem sizeUint_complete {env : Env} {z : SizeArg} {sz : Node × Node × Bool} {v : Value}
    (h : normalizeSizeRange env z.node = .ok sz) (h' : InSize .uint z v) : validateSizeUint sz v = .ok () := by
  have hz := size_small h
  -- a size with equal ends
  have same : ∀ (n y : Nat), n < 2 ^ 64 → (n < 16 → y < 256 ^ n) →
      validateSizeUint (.literal (.int n), .literal (.int n), true) (.integer y) = .ok () := by
    intro n y hn hy
    simp only [validateSizeUint, sizeEndpoints, toU64_nat hn, Res.bind]
    rw [if_neg (by simp), if_neg (by omega), if_pos (by simp)]
    split
    · rfl
    · rw [shl1_bytes (by omega)]
      simp only [Res.bind, Int.ofNat_lt]
      rw [if_pos (hy (by omega))]
  have other : ∀ (a b : Nat) (i : Bool) (y k : Nat), a < 2 ^ 64 → b < 2 ^ 64 → MinBytes y k → a ≤ k →
      (if i then k ≤ b else k < b) →
      validateSizeUint (.literal (.int a), .literal (.int b), i) (.integer y) = .ok () := by
    intro a b i y k ha hb hm hak hkb
    by_cases hab : a = b ∧ i = true
    · obtain ⟨rfl, rfl⟩ := hab
      simp only [if_true] at hkb
      have : k = a := by omega
      subst this
      exact same _ _ ha fun _ => hm.1
    · have hk := MinBytes.unique (minBytes_needed y) hm
      simp only [validateSizeUint, sizeEndpoints, toU64_nat ha, toU64_nat hb, Res.bind, Int.toNat_natCast, hk]
      rw [if_neg, if_neg (by omega), if_neg hab, if_neg (by omega), if_pos]
      · cases i <;> simp at hkb ⊢ <;> exact hkb
      · cases i <;> simp at hkb ⊢ <;> omega
  cases h' with
  | uint hx =>
    rename_i n x
    have hn : n < 2 ^ 64 := hz
    simp only [SizeArg.node, normalizeSizeRange, toU64_nat hn, Res.bind, Res.ok.injEq] at h
    subst h
    exact same _ _ hn hx
  | uintSame hx =>
    simp only [SizeArg.node, normalizeSizeRange, toU64_nat hz.1, toU64_nat hz.2, Res.bind, Res.ok.injEq] at h
    subst h
    exact same _ _ hz.1 hx
  | uintRange hm ha hne =>
    cases z with
    | exactly n => exact absurd rfl (hne n)
    | closed a b =>
      simp only [SizeArg.node, normalizeSizeRange, toU64_nat hz.1, toU64_nat hz.2, Res.bind, Res.ok.injEq] at h
      subst h
      exact other _ _ _ _ _ hz.1 hz.2 hm ha.1 ha.2
    | halfOpen a b =>
      simp only [SizeArg.node, normalizeSizeRange, toU64_nat hz.1, toU64_nat hz.2, Res.bind, Res.ok.injEq] at h
      subst h
      exact other _ _ _ _ _ hz.1 hz.2 hm ha.1 ha.2

/-- The leaves accept what they describe, unless the schema is in error. -/
theorem ctl_complete {env : Env} {c : Ctx} {op : CtlOp} {t a : Node} {v : Value} (h : Sat env c.scope (.ctl op t a) v) :
    ((lim env).val v (.ctl op t a) c).Fine := by
  have chased : ∀ {n n' : Node}, Reaches env c.scope n n' → ((lim env).chase n c).Fine ∧
      ∀ x, (lim env).chase n c = .ok x → x = n' := by
    intro n n' h
    rcases chase_complete h c rfl with h | ⟨e, h, he⟩ <;> rw [h]
    · exact ⟨Res.fine_ok, fun x h => by cases h; rfl⟩
    · exact ⟨Res.fine_err he, fun x h => by cases h⟩
  rw [val_eq]
  simp only [valBody]
  cases h with
  | @compare _ _ _ _ p k x ht ha hi hk =>
    cases op <;> simp only [validateControl, validateControlLt, validateControlLe, validateControlGt, validateControlGe,
      Compares] at hk ⊢
    all_goals
      refine Res.fine_bind (chased ha).1 fun an han => ?_
      cases (chased ha).2 _ han
      refine Res.fine_bind Res.fine_ok fun k' hk' => ?_
      cases hk'
      refine Res.fine_bind (chased ht).1 fun tn htn => ?_
      cases (chased ht).2 _ htn
      cases p <;> simp only [InIntType] at hi <;>
        simp only [validateLtUint, validateLeUint, validateGtUint, validateGeUint, validateLtNint, validateLeNint,
          validateGtNint, validateGeNint, validateLtInt, validateLeInt, validateGtInt, validateGeInt] <;>
        first
        | (rw [if_pos hk]; exact Res.fine_ok)
        | (rw [if_neg (by omega), if_pos hk]; exact Res.fine_ok)
  | size ht ha hz =>
    simp only [validateControl, validateControlSize]
    refine Res.fine_bind (chased ha).1 fun an han => ?_
    cases (chased ha).2 _ han
    refine Res.fine_bind (normalize_fine _) fun sz hsz => ?_
    refine Res.fine_bind (chased ht).1 fun tn htn => ?_
    cases (chased ht).2 _ htn
    rename_i p z
    have hp : p = .uint ∨ p = .tstr ∨ p = .bstr := by cases hz <;> simp
    rcases hp with rfl | rfl | rfl <;> dsimp only
    · rw [sizeUint_complete hsz hz]; exact Res.fine_ok
    · rw [sizeTstr_complete hsz hz]; exact Res.fine_ok
    · rw [sizeBstr_complete hsz hz]; exact Res.fine_ok

theorem rangeNode_complete {env : Env} {c : Ctx} {a b : Node} {i : Bool} {v : Value} (h : Sat env c.scope (.range a b i) v) :
    ((lim env).val v (.range a b i) c).Fine := by
  rw [val_eq]
  simp only [valBody, validateRange]
  cases h with
  | range ha hb hr =>
    rcases deref_complete ha c rfl with h | ⟨e, h, he⟩ <;> rw [h]
    · rcases deref_complete hb c rfl with h | ⟨e, h, he⟩ <;> rw [h]
      · simp only [Res.bind]; rw [range_complete hr]; exact Res.fine_ok
      · exact Res.fine_err he
    · exact Res.fine_err he

end Cddl
