import Verif.Proofs.Sim
import Verif.Spec.Cong

/-! # Corresponding schemas validate alike -/

namespace Cddl

mutual
theorem Cong.mono {ρ : String → String → Prop} {κ : Bool} : ∀ {n n' : Node}, Cong ρ κ false n n' → Cong ρ κ true n n'
  | .literal _, _, h => by cases h; exact .literal _ _
  | .prelude _, _, h => by cases h; exact .prelude _ _
  | .ctlRegexp _, _, h => by cases h; exact .regexp _ _
  | .rule .., _, h => by cases h; exact .rule _ ‹_› ‹_›
  | .choice _, _, h => by cases h with | choice h => exact .choice (Cong.monoL h)
  | .map _, _, h => by cases h; exact .map _ ‹_›
  | .array _, _, h => by cases h; exact .array _ ‹_›
  | .group _, _, h => by cases h with | group h => exact .group (Cong.monoL h)
  | .keyValue .., _, h => by cases h; exact .keyValue _ _ ‹_› ‹_›
  | .occur .., _, h => by
    cases h with
    | occur _ h => exact .occur _ (Cong.mono h)
    | respell _ _ hk ho h => exact .respell _ _ hk ho (Cong.mono h)
  | .unwrap .., _, h => by cases h; exact .unwrap _ ‹_› ‹_›
  | .range .., _, h => by cases h; exact .range _ _ ‹_› ‹_›
  | .ctl .., _, h => by cases h; exact .ctl _ _ ‹_› ‹_›
  | .ctlCbor _, _, h => by cases h; exact .cbor _ ‹_›
  | .choiceify .., _, h => by cases h; exact .choiceify _ ‹_› ‹_›
  | .choiceifyInline _, _, h => by cases h; exact .inline _ ‹_›
theorem Cong.monoL {ρ : String → String → Prop} {κ : Bool} :
    ∀ {l l' : List Node}, CongL ρ κ false l l' → CongL ρ κ true l l'
  | [], _, h => by cases h; exact .nil _
  | n :: ns, _, h => by cases h with | cons h1 h2 => exact .cons (Cong.mono h1) (Cong.monoL h2)
end

theorem CongL.length {ρ : String → String → Prop} {κ : Bool} {a : Bool} :
    ∀ {l l' : List Node}, CongL ρ κ a l l' → l.length = l'.length
  | [], _, h => by cases h; rfl
  | _ :: _, _, h => by cases h with | cons _ h => simp [CongL.length h]

theorem CongL.imp {ρ : String → String → Prop} {κ : Bool} {a : Bool} {P : Node → Node → Prop}
    (hp : ∀ n n', Cong ρ κ a n n' → P n n') : ∀ {l l' : List Node}, CongL ρ κ a l l' → All2 P l l'
  | [], _, h => by cases h; exact .nil
  | _ :: _, _, h => by cases h with | cons h1 h2 => exact .cons (hp _ _ h1) (CongL.imp hp h2)

theorem Cong.plain {ρ : String → String → Prop} {κ : Bool} {n n' : Node} (h : Cong ρ κ true n n')
    (hp : n.plain = true) : n'.plain = true ∧ Cong ρ κ false n n' := by
  cases h
  case literal => exact ⟨rfl, .literal _ _⟩
  case prelude => exact ⟨rfl, .prelude _ _⟩
  case regexp => exact ⟨rfl, .regexp _ _⟩
  case map => exact ⟨rfl, .map _ ‹_›⟩
  case array => exact ⟨rfl, .array _ ‹_›⟩
  case range => exact ⟨rfl, .range _ _ ‹_› ‹_›⟩
  case ctl => exact ⟨rfl, .ctl _ _ ‹_› ‹_›⟩
  case cbor => exact ⟨rfl, .cbor _ ‹_›⟩
  case choiceify => exact ⟨rfl, .choiceify _ ‹_› ‹_›⟩
  case inline => exact ⟨rfl, .inline _ ‹_›⟩
  all_goals simp [Node.plain] at hp

theorem Cong.display {ρ : String → String → Prop} {κ : Bool} {f : F64 → String} :
    ∀ {n n' : Node}, Cong ρ κ false n n' → n.display f = n'.display f
  | .keyValue .., _, h => by
    cases h with
    | keyValue _ _ h1 h2 => simp only [Node.display, Cong.display h1, Cong.display h2]
  | .literal _, _, h => by cases h; rfl
  | .prelude _, _, h => by cases h; rfl
  | .ctlRegexp _, _, h => by cases h; rfl
  | .rule .., _, h => by cases h; simp [Node.display]
  | .choice _, _, h => by cases h; simp [Node.display]
  | .map _, _, h => by cases h; simp [Node.display]
  | .array _, _, h => by cases h; simp [Node.display]
  | .group _, _, h => by cases h; simp [Node.display]
  | .occur .., _, h => by cases h <;> rfl
  | .unwrap .., _, h => by cases h; simp [Node.display]
  | .range .., _, h => by cases h; simp [Node.display]
  | .ctl .., _, h => by cases h; simp [Node.display]
  | .ctlCbor _, _, h => by cases h; simp [Node.display]
  | .choiceify .., _, h => by cases h; simp [Node.display]
  | .choiceifyInline _, _, h => by cases h; simp [Node.display]

theorem Cong.display' {ρ : String → String → Prop} {κ : Bool} {f : F64 → String} {a : Bool} (hk : κ = false) :
    ∀ {n n' : Node}, Cong ρ κ a n n' → n.display f = n'.display f
  | .keyValue .., _, h => by
    cases h with
    | keyValue _ _ h1 h2 => simp only [Node.display, Cong.display h1, Cong.display h2]
    | changeKey _ _ _ _ h => rw [hk] at h; cases h
    | dropKey _ _ h => rw [hk] at h; cases h
  | .literal _, _, h => by cases h; rfl
  | .prelude _, _, h => by cases h; rfl
  | .ctlRegexp _, _, h => by cases h; rfl
  | .rule .., _, h => by cases h; simp [Node.display]
  | .choice _, _, h => by cases h; simp [Node.display]
  | .map _, _, h => by cases h; simp [Node.display]
  | .array _, _, h => by cases h; simp [Node.display]
  | .group _, _, h => by cases h; simp [Node.display]
  | .occur .., _, h => by cases h <;> rfl
  | .unwrap .., _, h => by cases h; simp [Node.display]
  | .range .., _, h => by cases h; simp [Node.display]
  | .ctl .., _, h => by cases h; simp [Node.display]
  | .ctlCbor _, _, h => by cases h; simp [Node.display]
  | .choiceify .., _, h => by cases h; simp [Node.display]
  | .choiceifyInline _, _, h => by cases h; simp [Node.display]

theorem Cong.literal_iff {ρ : String → String → Prop} {κ : Bool} {n n' : Node} (h : Cong ρ κ false n n') (l : Literal) :
    n = .literal l ↔ n' = .literal l := by
  cases h <;> simp

theorem sizeRange_start {env : Env} {b e : Node} {i : Bool} (h : ¬ ∃ j, b = .literal (.int j)) :
    normalizeSizeRange env (.range b e i) =
      .err (.structural ("bad .size range start type (" ++ b.display env.fmtF64 ++ ")")) := by
  cases b with
  | literal l => cases l <;> first | rfl | exact absurd ⟨_, rfl⟩ h
  | _ => rfl

theorem sizeRange_stop {env : Env} {e : Node} {i : Bool} {k : Int} (h : ¬ ∃ j, e = .literal (.int j)) :
    normalizeSizeRange env (.range (.literal (.int k)) e i) =
      .err (.structural ("bad .size range end type (" ++ e.display env.fmtF64 ++ ")")) := by
  cases e with
  | literal l => cases l <;> first | rfl | exact absurd ⟨_, rfl⟩ h
  | _ => rfl

theorem Cong.leaf {ρ : String → String → Prop} {κ : Bool} {env env' : Env} (hf : env.fmtF64 = env'.fmtF64)
    {n n' : Node} (h : Cong ρ κ false n n') : LeafEq env env' n n' := by
  have hd := h.display (f := env.fmtF64)
  refine ⟨fun op => ?_, ?_, fun p => ?_, by rw [← hf]; exact hd⟩
  · cases h <;> first
      | rfl
      | (rename_i l; cases l <;> simp only [limitOf, ← hf] <;> rfl)
      | (simp only [limitOf, ← hf, hd]; done)
  · by_cases hr : ∃ b e i, n = .range b e i
    · obtain ⟨b, e, i, rfl⟩ := hr
      cases h with
      | range _ _ h1 h2 =>
        rename_i b' e'
        have d1 := h1.display (f := env.fmtF64)
        have d2 := h2.display (f := env.fmtF64)
        by_cases hb : ∃ j, b = .literal (.int j)
        · obtain ⟨j, rfl⟩ := hb
          cases h1
          by_cases he : ∃ j, e = .literal (.int j)
          · obtain ⟨j, rfl⟩ := he
            cases h2
            rfl
          · have he' : ¬ ∃ j, e' = .literal (.int j) := fun ⟨j, h⟩ => he ⟨j, (h2.literal_iff _).mpr h⟩
            rw [sizeRange_stop he, sizeRange_stop he', ← hf, d2]
        · have hb' : ¬ ∃ j, b' = .literal (.int j) := fun ⟨j, h⟩ => hb ⟨j, (h1.literal_iff _).mpr h⟩
          rw [sizeRange_start hb, sizeRange_start hb', ← hf, d1]
    · cases h <;> first
      | exact absurd ⟨_, _, _, rfl⟩ hr
      | (rename_i l; cases l <;> simp only [normalizeSizeRange, ← hf] <;> rfl)
      | (simp only [normalizeSizeRange, ← hf, hd]; done)
  · cases h <;> simp

/-- The relation used for the simulation. -/
def CongRel (G : String → String → Prop) (κ : Bool) : MRel := fun m c n c' n' =>
  ∃ ρ, CtxRel G κ c c' ρ ∧ Cong ρ κ (match m with | .arr => true | _ => false) n n' ∧
    match m with | .chf | .mchf => (∃ s as, n = .rule s as) | _ => True

theorem bound_find {ρ : String → String → Prop} {κ : Bool} {s s' : String} :
    ∀ {ps ps' : List String} {as as' : List Node}, ps.length = as.length → ps'.length = as'.length →
      CongL ρ κ false as as' → Bound ps ps' s s' →
      ∃ a a', gmapFind (ps.zip as) s = some a ∧ gmapFind (ps'.zip as') s' = some a' ∧ Cong ρ κ false a a'
  | [], _, _, _, _, _, _, h => by simp [Bound] at h
  | _ :: _, [], _, _, _, _, _, h => by simp [Bound] at h
  | p :: ps, p' :: ps', [], _, h, _, _, _ => by simp at h
  | p :: ps, p' :: ps', _ :: _, [], _, h, _, _ => by simp at h
  | p :: ps, p' :: ps', a :: as, a' :: as', h1, h2, ha, hb => by
    have nf : ∀ (qs : List String) (bs : List Node) (t : String), t ∉ qs → gmapFind (qs.zip bs) t = none := by
      intro qs
      induction qs with
      | nil => intro bs t _; simp [gmapFind]
      | cons q qs ih =>
        intro bs t ht
        cases bs with
        | nil => simp [gmapFind]
        | cons b bs =>
          simp only [List.mem_cons, not_or] at ht
          simp only [List.zip_cons_cons, gmapFind, ih bs t ht.2]
          simp [Ne.symm ht.1]
    simp only [List.length_cons, Nat.add_right_cancel_iff] at h1 h2
    cases ha with
    | cons ha1 ha2 =>
      simp only [Bound] at hb
      rcases hb with hb | ⟨rfl, rfl, hb1, hb2⟩
      · obtain ⟨x, x', e1, e2, e3⟩ := bound_find h1 h2 ha2 hb
        exact ⟨x, x', by simp [gmapFind, e1], by simp [gmapFind, e2], e3⟩
      · exact ⟨a, a', by simp [gmapFind, nf _ _ _ hb1], by simp [gmapFind, nf _ _ _ hb2], ha1⟩

theorem gmapFind_none : ∀ {qs : List String} {bs : List Node} {t : String}, t ∉ qs →
    gmapFind (qs.zip bs) t = none
  | [], _, _, _ => by simp [gmapFind]
  | q :: qs, [], _, _ => by simp [gmapFind]
  | q :: qs, b :: bs, t, ht => by
    simp only [List.mem_cons, not_or] at ht
    simp only [List.zip_cons_cons, gmapFind, gmapFind_none ht.2]
    simp [Ne.symm ht.1]

theorem derive_rel {G : String → String → Prop} {env env' : Env} {κ : Bool} (E : EnvRel G κ env env') {c c' : Ctx}
    {ρ : String → String → Prop} (hc : CtxRel G κ c c' ρ) (hd : c.depth = c'.depth) {s s' : String}
    {as as' : List Node} (hg : G s s') (ha : CongL ρ κ false as as')
    (h1 : c.lookupRule env s as =
      (env.lookup s).bind fun rd => (c.derive rd as).bind fun d => .ok (rd.node, d))
    (h2 : c'.lookupRule env' s' as' =
      (env'.lookup s').bind fun rd => (c'.derive rd as').bind fun d => .ok (rd.node, d)) :
    LookRel env env' (fun d n d' n' => ∃ ρ, CtxRel G κ d d' ρ ∧ Cong ρ κ false n n') c s as c' s' as' := by
  rcases E.look s s' hg with ⟨e, e1, e2⟩ | ⟨d, d', e1, e2, hdd⟩
  · exact .error e (by rw [h1, e1]; rfl) (by rw [h2, e2]; rfl)
  · rw [e1] at h1
    rw [e2] at h2
    simp only [Except.bind, Ctx.derive] at h1 h2
    by_cases har : d.params.length = as.length
    · have har' : d'.params.length = as'.length := by rw [← hdd.arity, har, ha.length]
      rw [if_neg (by simp [har])] at h1
      rw [if_neg (by simp [har'])] at h2
      simp only [Ctx.incDepth, ← hd] at h1 h2
      by_cases hdep : c.depth ≥ maxDepth
      · rw [if_pos hdep] at h1 h2
        exact .error _ h1 h2
      · rw [if_neg hdep] at h1 h2
        exact .ok h1 h2 ⟨_, .frame _ hc har har' ha, hdd.body⟩
    · have har' : ¬ d'.params.length = as'.length := by rw [← hdd.arity, ← ha.length]; exact har
      rw [if_pos (by simpa using har)] at h1
      rw [if_pos (by simpa using har')] at h2
      exact .error _ h1 h2

theorem CtxRel.depth {G : String → String → Prop} {c c' : Ctx} {ρ : String → String → Prop} {κ : Bool}
    (h : CtxRel G κ c c' ρ) : c.depth = c'.depth := by cases h <;> first | rfl | assumption

theorem look_rel {G : String → String → Prop} {env env' : Env} {κ : Bool} (E : EnvRel G κ env env') {c c' : Ctx}
    {ρ : String → String → Prop} (hc : CtxRel G κ c c' ρ) {s s' : String} {as as' : List Node} (hs : ρ s s')
    (ha : CongL ρ κ false as as') :
    LookRel env env' (fun d n d' n' => ∃ ρ, CtxRel G κ d d' ρ ∧ Cong ρ κ false n n') c s as c' s' as' := by
  have hc' := hc
  cases hc with
  | root d => exact derive_rel E hc' hc'.depth hs ha rfl rfl
  | free hd =>
    obtain ⟨h1, h2, h3⟩ := hs
    refine derive_rel E hc' hd h3 ha ?_ ?_
    · cases c with
      | root d => rfl
      | frame g p d => simp only [Ctx.param] at h1; simp only [Ctx.lookupRule, h1]
    · cases c' with
      | root d => rfl
      | frame g p d => simp only [Ctx.param] at h2; simp only [Ctx.lookupRule, h2]
  | frame d hp hl hl' hpa =>
    rcases hs with hb | ⟨hn, hn', hg⟩
    · obtain ⟨a, a', e1, e2, e3⟩ := bound_find hl hl' hpa hb
      exact .ok (by simp only [Ctx.lookupRule, e1]) (by simp only [Ctx.lookupRule, e2]) ⟨_, hp, e3⟩
    · exact derive_rel E hc' hc'.depth hg ha (by simp only [Ctx.lookupRule, gmapFind_none hn])
        (by simp only [Ctx.lookupRule, gmapFind_none hn'])

theorem LookRel.imp {env env' : Env} {P Q : Ctx → Node → Ctx → Node → Prop} {c c' : Ctx} {s s' : String}
    {as as' : List Node} (h : LookRel env env' P c s as c' s' as')
    (hi : ∀ d n d' n', P d n d' n' → Q d n d' n') : LookRel env env' Q c s as c' s' as' := by
  cases h with
  | error e h1 h2 => exact .error e h1 h2
  | ok h1 h2 h3 => exact .ok h1 h2 (hi _ _ _ _ h3)

theorem isItem_single {env : Env} {c : Ctx} {n : Node} (h : n.isItem = true) : Single env c n := by
  cases n <;> first | (simp [Node.isItem] at h; done) | constructor

theorem congSim {G : String → String → Prop} {κ : Bool} {env env' : Env} (E : EnvRel G κ env env') :
    Simulation (!κ) env env' (CongRel G κ) := by
  refine ⟨E.regex, E.cbor, E.fmt, fun hx m c n c' n' ⟨ρ, _, h, _⟩ => ?_, ?_⟩
  · refine Cong.display' ?_ h
    cases κ <;> simp_all
  rintro m c n c' n' ⟨ρ, hc, h, hm⟩
  have L : ∀ {s s' as as'}, ρ s s' → CongL ρ κ false as as' →
    LookRel env env' (fun d n d' n' => ∃ ρ, CtxRel G κ d d' ρ ∧ Cong ρ κ false n n') c s as c' s' as' :=
    fun hs ha => look_rel E hc hs ha
  cases m with
  | val =>
    dsimp only at h
    cases h with
    | literal => exact .vLiteral _ _ _
    | prelude => exact .vPrelude _ _ _
    | regexp => exact .vRegexp _ _ _
    | rule _ hs ha => exact .vRule ((L hs ha).imp fun _ _ _ _ ⟨ρ, a, b⟩ => ⟨ρ, a, b, trivial⟩)
    | choice h => exact .vChoice (h.imp fun a b hab => ⟨ρ, hc, hab, trivial⟩)
    | map _ h => exact .vMap (h.imp fun a b hab => ⟨ρ, hc, hab, trivial⟩)
    | array _ h => exact .vArray (h.imp fun a b hab => ⟨ρ, hc, hab, trivial⟩)
    | group h => exact .vGroup (h.imp fun a b hab => ⟨ρ, hc, hab, trivial⟩)
    | keyValue => exact .vKeyValue _ _ _ _ _ _ _ _
    | occur | respell => exact .vOccur _ _ _ _ _ _
    | unwrap => exact .vUnwrap _ _ _ _ _ _
    | range _ _ h1 h2 => exact .vRange _ ⟨ρ, hc, h1, trivial⟩ ⟨ρ, hc, h2, trivial⟩
    | ctl _ _ h1 h2 => exact .vCtl _ ⟨ρ, hc, h1, trivial⟩ ⟨ρ, hc, h2, trivial⟩
    | cbor _ h => exact .vCbor ⟨ρ, hc, h, trivial⟩
    | choiceify _ hs ha => exact .vChoiceify ⟨ρ, hc, .rule _ hs ha, _, _, rfl⟩
    | inline _ h => exact .vInline (h.imp fun a b hab => ⟨ρ, hc, hab, trivial⟩)
  | arr =>
    dsimp only at h
    by_cases hp : n.plain = true
    · obtain ⟨h1, h2⟩ := h.plain hp
      exact .aPlain hp h1 ⟨ρ, hc, h2, trivial⟩
    · cases h with
      | rule _ hs ha => exact .aRule ((L hs ha).imp fun _ _ _ _ ⟨ρ, a, b⟩ => ⟨ρ, a, b.mono, trivial⟩)
      | choice h => exact .aChoice (h.imp fun a b hab => ⟨ρ, hc, hab, trivial⟩)
      | group h => exact .aGroup (h.imp fun a b hab => ⟨ρ, hc, hab, trivial⟩)
      | keyValue _ _ h1 h2 => exact .aKeyValue ⟨ρ, hc, h2, trivial⟩
      | changeKey _ _ _ _ _ h => exact .aKeyValue ⟨ρ, hc, h, trivial⟩
      | dropKey _ _ hk h hi => exact .aStrip (by simp [hk]) ⟨ρ, hc, h, trivial⟩ (isItem_single hi)
      | occur _ h => exact .aOccur rfl (fun _ => rfl) ⟨ρ, hc, h, trivial⟩
      | respell _ _ hk ho h => exact .aOccur ho (by simp [hk]) ⟨ρ, hc, h, trivial⟩
      | unwrap _ hs ha =>
        refine .aUnwrap _ ?_ (L hs ha)
        rintro d n d' n' ⟨ρ', hd, hn⟩
        cases hn with
        | array _ h => exact .inl ⟨_, _, rfl, rfl, h.imp fun a b hab => ⟨ρ', hd, hab, trivial⟩⟩
        | _ => exact .inr ⟨by simp, by simp⟩
      | _ => simp [Node.plain] at hp
  | map =>
    dsimp only at h
    cases h with
    | literal => exact .mLiteral _ _ _ _
    | prelude => exact .mPrelude _ _ _ _
    | regexp => exact .mRegexp _ _ _ _
    | rule _ hs ha => exact .mRule ((L hs ha).imp fun _ _ _ _ ⟨ρ, a, b⟩ => ⟨ρ, a, b, trivial⟩)
    | choice h => exact .mChoice (h.imp fun a b hab => ⟨ρ, hc, hab, trivial⟩)
    | map _ h => exact .mMap _ _ _ _
    | array _ h => exact .mArray _ _ _ _
    | group h => exact .mGroup (h.imp fun a b hab => ⟨ρ, hc, hab, trivial⟩)
    | keyValue _ _ h1 h2 => exact .mKeyValue _ (h1.literal_iff) ⟨ρ, hc, h1, trivial⟩ ⟨ρ, hc, h2, trivial⟩
    | occur _ h => exact .mOccur rfl (fun _ => rfl) ⟨ρ, hc, h, trivial⟩
    | respell _ _ hk ho h => exact .mOccur ho (by simp [hk]) ⟨ρ, hc, h, trivial⟩
    | unwrap _ hs ha =>
      refine .mUnwrap _ ?_ (L hs ha)
      rintro d n d' n' ⟨ρ', hd, hn⟩
      cases hn with
      | map _ h => exact .inl ⟨_, _, rfl, rfl, h.imp fun a b hab => ⟨ρ', hd, hab, trivial⟩⟩
      | _ => exact .inr ⟨by simp, by simp⟩
    | range => exact .mRange _ _ _ _ _ _ _ _
    | ctl => exact .mCtl _ _ _ _ _ _ _ _
    | cbor => exact .mCbor _ _ _ _
    | choiceify _ hs ha => exact .mChoiceify ⟨ρ, hc, .rule _ hs ha, _, _, rfl⟩
    | inline _ h => exact .mInline (h.imp fun a b hab => ⟨ρ, hc, hab, trivial⟩)
  | item =>
    dsimp only at h
    have hr : CongRel G κ .val c n c' n' := ⟨ρ, hc, h, trivial⟩
    cases h with
    | keyValue _ _ h1 h2 => exact .iKeyValue ⟨ρ, hc, h2, trivial⟩
    | rule _ hs ha => exact .iRule ⟨ρ, hc, .rule _ hs ha, _, _, rfl⟩
    | _ => exact .iOther (by simp) (by simp) (by simp) (by simp) hr
  | mitem =>
    dsimp only at h
    have hr : CongRel G κ .map c n c' n' := ⟨ρ, hc, h, trivial⟩
    cases h with
    | keyValue _ _ h1 h2 => exact .jKeyValue ⟨ρ, hc, h2, trivial⟩
    | rule _ hs ha => exact .jRule ⟨ρ, hc, .rule _ hs ha, _, _, rfl⟩
    | _ => exact .jOther (by simp) (by simp) (by simp) (by simp) hr
  | chf =>
    dsimp only at h hm
    obtain ⟨s, as, rfl⟩ := hm
    cases h with
    | rule _ hs ha =>
      refine .cLook _ ?_ (L hs ha)
      rintro d n d' n' ⟨ρ', hd, hn⟩
      cases hn with
      | group h => exact .inl ⟨_, _, rfl, rfl, h.imp fun a b hab => ⟨ρ', hd, hab, trivial⟩⟩
      | rule _ hs ha => exact .inr (.inl ⟨_, _, _, _, rfl, rfl, ρ', hd, .rule _ hs ha, _, _, rfl⟩)
      | _ => exact .inr (.inr ⟨by simp, by simp, by simp, by simp⟩)
  | mchf =>
    dsimp only at h hm
    obtain ⟨s, as, rfl⟩ := hm
    cases h with
    | rule _ hs ha =>
      refine .jLook _ ?_ (L hs ha)
      rintro d n d' n' ⟨ρ', hd, hn⟩
      cases hn with
      | group h => exact .inl ⟨_, _, rfl, rfl, h.imp fun a b hab => ⟨ρ', hd, hab, trivial⟩⟩
      | rule _ hs ha => exact .inr (.inl ⟨_, _, _, _, rfl, rfl, ρ', hd, .rule _ hs ha, _, _, rfl⟩)
      | _ => exact .inr (.inr ⟨by simp, by simp, by simp, by simp⟩)
  | deref =>
    dsimp only at h
    cases h with
    | literal => exact .dLiteral _ _ _
    | rule _ hs ha => exact .dRule ((L hs ha).imp fun _ _ _ _ ⟨ρ, a, b⟩ => ⟨ρ, a, b, trivial⟩)
    | _ => exact .dOther (by simp) (by simp) (by simp) (by simp)
  | chase =>
    dsimp only at h
    have hl := h.leaf E.fmt
    cases h with
    | rule _ hs ha => exact .hRule ((L hs ha).imp fun _ _ _ _ ⟨ρ, a, b⟩ => ⟨ρ, a, b, trivial⟩)
    | _ => exact .hLeaf (by simp) (by simp) hl

mutual
theorem Cong.refl {ρ : String → String → Prop} {κ : Bool} : ∀ {a : Bool} {n : Node}, (∀ s ∈ n.names, ρ s s) →
    Cong ρ κ a n n
  | _, .literal _, _ => .literal _ _
  | _, .prelude _, _ => .prelude _ _
  | _, .ctlRegexp _, _ => .regexp _ _
  | _, .rule s as, h => .rule _ (h s (by simp [Node.names])) (CongL.refl fun t ht => h t (by simp [Node.names, ht]))
  | _, .unwrap s as, h =>
    .unwrap _ (h s (by simp [Node.names])) (CongL.refl fun t ht => h t (by simp [Node.names, ht]))
  | _, .choiceify s as, h =>
    .choiceify _ (h s (by simp [Node.names])) (CongL.refl fun t ht => h t (by simp [Node.names, ht]))
  | _, .choice l, h => .choice (CongL.refl fun t ht => h t (by simpa [Node.names] using ht))
  | _, .map l, h => .map _ (CongL.refl fun t ht => h t (by simpa [Node.names] using ht))
  | _, .array l, h => .array _ (CongL.refl fun t ht => h t (by simpa [Node.names] using ht))
  | _, .group l, h => .group (CongL.refl fun t ht => h t (by simpa [Node.names] using ht))
  | _, .choiceifyInline l, h => .inline _ (CongL.refl fun t ht => h t (by simpa [Node.names] using ht))
  | _, .keyValue k v _, h =>
    .keyValue _ _ (Cong.refl fun t ht => h t (by simp [Node.names, ht]))
      (Cong.refl fun t ht => h t (by simp [Node.names, ht]))
  | _, .range k v _, h =>
    .range _ _ (Cong.refl fun t ht => h t (by simp [Node.names, ht]))
      (Cong.refl fun t ht => h t (by simp [Node.names, ht]))
  | _, .ctl _ k v, h =>
    .ctl _ _ (Cong.refl fun t ht => h t (by simp [Node.names, ht]))
      (Cong.refl fun t ht => h t (by simp [Node.names, ht]))
  | _, .occur _ n, h => .occur _ (Cong.refl fun t ht => h t (by simpa [Node.names] using ht))
  | _, .ctlCbor n, h => .cbor _ (Cong.refl fun t ht => h t (by simpa [Node.names] using ht))
theorem CongL.refl {ρ : String → String → Prop} {κ : Bool} : ∀ {a : Bool} {l : List Node},
    (∀ s ∈ Node.namesL l, ρ s s) → CongL ρ κ a l l
  | _, [], _ => .nil _
  | _, _ :: _, h => .cons (Cong.refl fun t ht => h t (by simp [Node.namesL, ht]))
      (CongL.refl fun t ht => h t (by simp [Node.namesL, ht]))
end

mutual
theorem Cong.weaken {ρ ρ' : String → String → Prop} {κ : Bool} (hρ : ∀ s s', ρ s s' → ρ' s s') :
    ∀ {a : Bool} {n n' : Node}, Cong ρ κ a n n' → Cong ρ' κ a n n'
  | _, _, _, .literal _ _ => .literal _ _
  | _, _, _, .prelude _ _ => .prelude _ _
  | _, _, _, .regexp _ _ => .regexp _ _
  | _, _, _, .rule _ h ha => .rule _ (hρ _ _ h) (CongL.weaken hρ ha)
  | _, _, _, .unwrap _ h ha => .unwrap _ (hρ _ _ h) (CongL.weaken hρ ha)
  | _, _, _, .choiceify _ h ha => .choiceify _ (hρ _ _ h) (CongL.weaken hρ ha)
  | _, _, _, .choice h => .choice (CongL.weaken hρ h)
  | _, _, _, .map _ h => .map _ (CongL.weaken hρ h)
  | _, _, _, .array _ h => .array _ (CongL.weaken hρ h)
  | _, _, _, .group h => .group (CongL.weaken hρ h)
  | _, _, _, .inline _ h => .inline _ (CongL.weaken hρ h)
  | _, _, _, .keyValue _ _ h1 h2 => .keyValue _ _ (Cong.weaken hρ h1) (Cong.weaken hρ h2)
  | _, _, _, .changeKey _ _ _ _ hk h => .changeKey _ _ _ _ hk (Cong.weaken hρ h)
  | _, _, _, .dropKey _ _ hk h hi => .dropKey _ _ hk (Cong.weaken hρ h) hi
  | _, _, _, .range _ _ h1 h2 => .range _ _ (Cong.weaken hρ h1) (Cong.weaken hρ h2)
  | _, _, _, .ctl _ _ h1 h2 => .ctl _ _ (Cong.weaken hρ h1) (Cong.weaken hρ h2)
  | _, _, _, .occur _ h => .occur _ (Cong.weaken hρ h)
  | _, _, _, .respell _ _ hk ho h => .respell _ _ hk ho (Cong.weaken hρ h)
  | _, _, _, .cbor _ h => .cbor _ (Cong.weaken hρ h)
theorem CongL.weaken {ρ ρ' : String → String → Prop} {κ : Bool} (hρ : ∀ s s', ρ s s' → ρ' s s') :
    ∀ {a : Bool} {l l' : List Node}, CongL ρ κ a l l' → CongL ρ' κ a l l'
  | _, _, _, .nil _ => .nil _
  | _, _, _, .cons h1 h2 => .cons (Cong.weaken hρ h1) (CongL.weaken hρ h2)
end

theorem bound_self {s : String} : ∀ {ps : List String}, s ∈ ps → Bound ps ps s s
  | p :: ps, h => by
    by_cases hs : s ∈ ps
    · exact .inl (bound_self hs)
    · rcases List.mem_cons.mp h with rfl | h
      · exact .inr ⟨rfl, rfl, hs, hs⟩
      · exact absurd h hs

theorem scopeRel_self {G : String → String → Prop} {ps : List String} {s : String}
    (h : s ∉ ps → G s s) : scopeRel G ps ps s s := by
  by_cases hs : s ∈ ps
  · exact .inl (bound_self hs)
  · exact .inr ⟨hs, hs, h hs⟩

theorem Res.er_true {α : Type} (r : Res α) : r.er true = r := by
  cases r with
  | err e => cases e <;> rfl
  | _ => rfl

end Cddl
