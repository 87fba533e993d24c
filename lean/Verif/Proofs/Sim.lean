import Verif.Proofs.Single

/-! # Simulation between two rule sets

If two environments and their scopes and nodes match step by step, validation gives the same
result up to the text of mismatch messages. -/

namespace Cddl

/-- Forget the text of mismatch messages, unless results are compared exactly (`x = true`). -/
def Err.er : Bool → Err → Err
  | false, .mismatch _ => .mismatch ""
  | false, .mapCut _ => .mapCut ""
  | _, e => e

def Res.er {α : Type} (x : Bool) : Res α → Res α
  | .err e => .err (e.er x)
  | r => r

def SRes.er {σ : Type} (x : Bool) : SRes σ → SRes σ
  | .err e w => .err (e.er x) w
  | r => r

theorem Err.er_isFatal {x : Bool} {e e' : Err} (h : e'.er x = e.er x) : e'.isFatal = e.isFatal := by
  cases x <;> cases e <;> cases e' <;> simp_all [Err.er, Err.isFatal]

theorem Err.er_isMismatch {x : Bool} {e e' : Err} (h : e'.er x = e.er x) : e'.isMismatch = e.isMismatch := by
  cases x <;> cases e <;> cases e' <;> simp_all [Err.er, Err.isMismatch]

theorem Err.er_eraseMapcut {x : Bool} {e e' : Err} (h : e'.er x = e.er x) :
    e'.eraseMapcut.er x = e.eraseMapcut.er x := by
  cases x <;> cases e <;> cases e' <;> simp_all [Err.er, Err.eraseMapcut]

/-- `r'` is the same result as `r`, if that is a result. -/
def RSim (x : Bool) {α : Type} (r r' : Res α) : Prop := r ≠ .fuel → r'.er x = r.er x
def SSim (x : Bool) {σ : Type} (r r' : SRes σ) : Prop := r ≠ .fuel → r'.er x = r.er x

section
variable {x : Bool}

theorem RSim.refl {α : Type} (r : Res α) : RSim x r r := fun _ => rfl
theorem SSim.refl {σ : Type} (r : SRes σ) : SSim x r r := fun _ => rfl

theorem RSim.cases {α : Type} {r r' : Res α} (h : RSim x r r') :
    (∃ a, r = .ok a ∧ r' = .ok a) ∨ (∃ e e', r = .err e ∧ r' = .err e' ∧ e'.er x = e.er x) ∨
      (r = .panic ∧ r' = .panic) ∨ r = .fuel := by
  cases r with
  | ok a => have := h (by simp); cases r' <;> simp_all [Res.er]
  | err e => have := h (by simp); cases r' <;> simp_all [Res.er]
  | panic => have := h (by simp); cases r' <;> simp_all [Res.er]
  | fuel => simp

theorem SSim.cases {σ : Type} {r r' : SRes σ} (h : SSim x r r') :
    (∃ a, r = .ok a ∧ r' = .ok a) ∨
      (∃ e e' w, r = .err e w ∧ r' = .err e' w ∧ e'.er x = e.er x) ∨
      (r = .panic ∧ r' = .panic) ∨ r = .fuel := by
  cases r with
  | ok a => have := h (by simp); cases r' <;> simp_all [SRes.er]
  | err e w =>
    have := h (by simp)
    cases r' with
    | err e' w' =>
      simp only [SRes.er, SRes.err.injEq] at this
      obtain ⟨h1, rfl⟩ := this
      exact .inr (.inl ⟨e, e', w', rfl, rfl, h1⟩)
    | _ => simp_all [SRes.er]
  | panic => have := h (by simp); cases r' <;> simp_all [SRes.er]
  | fuel => simp

theorem RSim.bind {α β : Type} {r r' : Res α} {f g : α → Res β} (h : RSim x r r')
    (hf : ∀ a, r = .ok a → RSim x (f a) (g a)) : RSim x (r.bind f) (r'.bind g) := by
  rcases h.cases with ⟨a, rfl, rfl⟩ | ⟨e, e', rfl, rfl, he⟩ | ⟨rfl, rfl⟩ | rfl
  · exact hf a rfl
  · intro _; simp [Res.er, he]
  · intro _; rfl
  · intro h; simp at h

theorem RSim.mismatch {α : Type} {a b : String} (h : x = true → a = b) :
    RSim x (.err (.mismatch a) : Res α) (.err (.mismatch b)) := by
  intro _; cases x
  · rfl
  · simp_all
theorem SSim.mismatch {σ : Type} {a b : String} {w : σ} (h : x = true → a = b) :
    SSim x (.err (.mismatch a) w) (.err (.mismatch b) w) := by
  intro _; cases x
  · rfl
  · simp_all

theorem RSim.ofEq {α : Type} {r r' : Res α} (h : r = r') : RSim x r r' := h ▸ RSim.refl r

theorem choiceLoop_sim {f g : Node → Res Unit} {m m' : String} {l l' : List Node}
    (hm : x = true → m = m') (h : All2 (fun n n' => RSim x (f n) (g n')) l l') : RSim x (choiceLoop f m l) (choiceLoop g m' l') := by
  induction h with
  | nil => exact .mismatch hm
  | cons h _ ih =>
    simp only [choiceLoop]
    rcases h.cases with ⟨a, h1, h2⟩ | ⟨e, e', h1, h2, he⟩ | ⟨h1, h2⟩ | h1
    · rw [h1, h2]; exact .refl _
    · rw [h1, h2]
      simp only [Err.er_isFatal he]
      split
      · intro _; simp [Res.er, he]
      · exact ih
    · rw [h1, h2]; exact .refl _
    · rw [h1]; intro h; simp at h

theorem choiceLoopS_sim {σ : Type} {f g : Node → σ → SRes σ} {stop : Err → Bool} {m m' : String}
    {l l' : List Node} (hm : x = true → m = m') (hs : ∀ e e' : Err, e'.er x = e.er x → stop e' = stop e)
    (h : All2 (fun n n' => ∀ w, SSim x (f n w) (g n' w)) l l') :
    ∀ w, SSim x (choiceLoopS f stop m l w) (choiceLoopS g stop m' l' w) := by
  induction h with
  | nil => intro w; exact .mismatch hm
  | cons h _ ih =>
    intro w
    simp only [choiceLoopS]
    rcases (h w).cases with ⟨a, h1, h2⟩ | ⟨e, e', w', h1, h2, he⟩ | ⟨h1, h2⟩ | h1
    · rw [h1, h2]; exact .refl _
    · rw [h1, h2]
      simp only [hs e e' he]
      split
      · intro _; simp [SRes.er, he]
      · exact ih w'
    · rw [h1, h2]; exact .refl _
    · rw [h1]; intro h; simp at h

theorem seqLoopS_sim {σ : Type} {f g : Node → σ → SRes σ} {l l' : List Node}
    (h : All2 (fun n n' => ∀ w, SSim x (f n w) (g n' w)) l l') :
    ∀ w, SSim x (seqLoopS f l w) (seqLoopS g l' w) := by
  induction h with
  | nil => intro w; exact .refl _
  | cons h _ ih =>
    intro w
    simp only [seqLoopS]
    rcases (h w).cases with ⟨a, h1, h2⟩ | ⟨e, e', w', h1, h2, he⟩ | ⟨h1, h2⟩ | h1
    · rw [h1, h2]; exact ih a
    · rw [h1, h2]; intro _; simp [SRes.er, he]
    · rw [h1, h2]; exact .refl _
    · rw [h1]; intro h; simp at h

theorem occurLoopS_sim {σ : Type} {f g : σ → SRes σ} {lo up : Nat} {m m' : String}
    (hm : x = true → m = m') (h : ∀ w, SSim x (f w) (g w)) : ∀ k cnt w,
    SSim x (occurLoopS f lo up m k cnt w) (occurLoopS g lo up m' k cnt w)
  | 0, _, _ => by intro h; simp [occurLoopS] at h
  | k + 1, cnt, w => by
    simp only [occurLoopS]
    rcases (h w).cases with ⟨a, h1, h2⟩ | ⟨e, e', w', h1, h2, he⟩ | ⟨h1, h2⟩ | h1
    · rw [h1, h2]
      dsimp only
      split
      · split
        · exact .mismatch hm
        · exact .refl _
      · exact occurLoopS_sim hm h k _ a
    · rw [h1, h2]
      simp only [Err.er_isMismatch he]
      split
      · split
        · exact .mismatch hm
        · exact .refl _
      · intro _; simp [SRes.er, he]
    · rw [h1, h2]; exact .refl _
    · rw [h1]; intro h; simp at h

theorem mapSearchLoop_sim {f g : Value → Res Unit} {m m' : String} (hm : x = true → m = m') (h : ∀ v, RSim x (f v) (g v)) :
    ∀ l : VMap, RSim x (mapSearchLoop f m l) (mapSearchLoop g m' l)
  | [] => .mismatch hm
  | (k, v) :: t => by
    simp only [mapSearchLoop]
    rcases (h k).cases with ⟨a, h1, h2⟩ | ⟨e, e', h1, h2, he⟩ | ⟨h1, h2⟩ | h1
    · rw [h1, h2]; exact .refl _
    · rw [h1, h2]; exact mapSearchLoop_sim hm h t
    · rw [h1, h2]; exact .refl _
    · rw [h1]; intro h; simp at h

end

/-- The ways a node is used. -/
inductive Mode
  | val | arr | map | item | mitem | chf | mchf | deref | chase

/-- A family of relations between (scope, node) pairs. -/
abbrev MRel := Mode → Ctx → Node → Ctx → Node → Prop

/-- Both lookups fail alike or lead to related places. -/
inductive LookRel (env env' : Env) (P : Ctx → Node → Ctx → Node → Prop) (c : Ctx) (s : String)
    (as : List Node) (c' : Ctx) (s' : String) (as' : List Node) : Prop
  | error (e : Err) : c.lookupRule env s as = .error e → c'.lookupRule env' s' as' = .error e →
      LookRel env env' P c s as c' s' as'
  | ok {n n' : Node} {d d' : Ctx} : c.lookupRule env s as = .ok (n, d) →
      c'.lookupRule env' s' as' = .ok (n', d') → P d n d' n' → LookRel env env' P c s as c' s' as'

/-- Nodes handled by the catch-all arm of array members. -/
def Node.plain : Node → Bool
  | .occur .. | .keyValue .. | .rule .. | .unwrap .. | .choice _ | .group _ => false
  | _ => true

/-- The arguments of controls look the same. -/
structure LeafEq (env env' : Env) (n n' : Node) : Prop where
  limit : ∀ op, limitOf env op n = limitOf env' op n'
  size : normalizeSizeRange env n = normalizeSizeRange env' n'
  prel : ∀ p, n = .prelude p ↔ n' = .prelude p
  disp : n.display env.fmtF64 = n'.display env'.fmtF64

/-- One step of the match, per use. -/
inductive StepRel (x : Bool) (env env' : Env) (R : MRel) : MRel
  -- single values
  | vLiteral (c l c') : StepRel x env env' R .val c (.literal l) c' (.literal l)
  | vPrelude (c p c') : StepRel x env env' R .val c (.prelude p) c' (.prelude p)
  | vRegexp (c p c') : StepRel x env env' R .val c (.ctlRegexp p) c' (.ctlRegexp p)
  | vChoice {c l c' l'} : All2 (fun n n' => R .val c n c' n') l l' →
      StepRel x env env' R .val c (.choice l) c' (.choice l')
  | vMap {c l c' l'} : All2 (fun n n' => R .map c n c' n') l l' →
      StepRel x env env' R .val c (.map l) c' (.map l')
  | vArray {c l c' l'} : All2 (fun n n' => R .arr c n c' n') l l' →
      StepRel x env env' R .val c (.array l) c' (.array l')
  | vRule {c s as c' s' as'} : LookRel env env' (R .val) c s as c' s' as' →
      StepRel x env env' R .val c (.rule s as) c' (.rule s' as')
  | vGroup {c l c' l'} : All2 (fun n n' => R .val c n c' n') l l' →
      StepRel x env env' R .val c (.group l) c' (.group l')
  | vKeyValue (c a b y c' a' b' y') :
      StepRel x env env' R .val c (.keyValue a b y) c' (.keyValue a' b' y')
  | vOccur (c a b c' a' b') : StepRel x env env' R .val c (.occur a b) c' (.occur a' b')
  | vUnwrap (c a b c' a' b') : StepRel x env env' R .val c (.unwrap a b) c' (.unwrap a' b')
  | vRange {c a b c' a' b'} (i) : R .deref c a c' a' → R .deref c b c' b' →
      StepRel x env env' R .val c (.range a b i) c' (.range a' b' i)
  | vCtl {c a b c' a' b'} (o) : R .chase c a c' a' → R .chase c b c' b' →
      StepRel x env env' R .val c (.ctl o a b) c' (.ctl o a' b')
  | vCbor {c n c' n'} : R .val c n c' n' → StepRel x env env' R .val c (.ctlCbor n) c' (.ctlCbor n')
  | vChoiceify {c s as c' s' as'} : R .chf c (.rule s as) c' (.rule s' as') →
      StepRel x env env' R .val c (.choiceify s as) c' (.choiceify s' as')
  | vInline {c l c' l'} : All2 (fun n n' => R .item c n c' n') l l' →
      StepRel x env env' R .val c (.choiceifyInline l) c' (.choiceifyInline l')
  -- items of `&group`
  | iKeyValue {c k v y c' k' v' y'} : R .val c v c' v' →
      StepRel x env env' R .item c (.keyValue k v y) c' (.keyValue k' v' y')
  | iRule {c s as c' s' as'} : R .chf c (.rule s as) c' (.rule s' as') →
      StepRel x env env' R .item c (.rule s as) c' (.rule s' as')
  | iOther {c n c' n'} : (∀ s as, n ≠ .rule s as) → (∀ k v y, n ≠ .keyValue k v y) →
      (∀ s as, n' ≠ .rule s as) → (∀ k v y, n' ≠ .keyValue k v y) → R .val c n c' n' →
      StepRel x env env' R .item c n c' n'
  | cLook {c s as c' s' as'}
      (P : Ctx → Node → Ctx → Node → Prop) :
      (∀ d n d' n', P d n d' n' →
        (∃ l l', n = .group l ∧ n' = .group l' ∧ All2 (fun n n' => R .item d n d' n') l l') ∨
        (∃ s as s' as', n = .rule s as ∧ n' = .rule s' as' ∧ R .chf d n d' n') ∨
        ((∀ l, n ≠ .group l) ∧ (∀ s as, n ≠ .rule s as) ∧
          (∀ l, n' ≠ .group l) ∧ (∀ s as, n' ≠ .rule s as))) →
      LookRel env env' P c s as c' s' as' →
      StepRel x env env' R .chf c (.rule s as) c' (.rule s' as')
  -- array members
  | aOccur {c n c' n' o o'} : o.limits = o'.limits → (x = true → o = o') → R .arr c n c' n' →
      StepRel x env env' R .arr c (.occur o n) c' (.occur o' n')
  | aKeyValue {c k v y c' k' v' y'} : R .val c v c' v' →
      StepRel x env env' R .arr c (.keyValue k v y) c' (.keyValue k' v' y')
  | aStrip {c k v y c' n'} : x = false → R .val c v c' n' → Single env' c' n' →
      StepRel x env env' R .arr c (.keyValue k v y) c' n'
  | aRule {c s as c' s' as'} : LookRel env env' (R .arr) c s as c' s' as' →
      StepRel x env env' R .arr c (.rule s as) c' (.rule s' as')
  | aUnwrap {c s as c' s' as'}
      (P : Ctx → Node → Ctx → Node → Prop) :
      (∀ d n d' n', P d n d' n' →
        (∃ l l', n = .array l ∧ n' = .array l' ∧ All2 (fun n n' => R .arr d n d' n') l l') ∨
        ((∀ l, n ≠ .array l) ∧ (∀ l, n' ≠ .array l))) →
      LookRel env env' P c s as c' s' as' →
      StepRel x env env' R .arr c (.unwrap s as) c' (.unwrap s' as')
  | aChoice {c l c' l'} : All2 (fun n n' => R .arr c n c' n') l l' →
      StepRel x env env' R .arr c (.choice l) c' (.choice l')
  | aGroup {c l c' l'} : All2 (fun n n' => R .arr c n c' n') l l' →
      StepRel x env env' R .arr c (.group l) c' (.group l')
  | aPlain {c n c' n'} : n.plain = true → n'.plain = true → R .val c n c' n' →
      StepRel x env env' R .arr c n c' n'
  -- map members
  | mOccur {c n c' n' o o'} : o.limits = o'.limits → (x = true → o = o') → R .map c n c' n' →
      StepRel x env env' R .map c (.occur o n) c' (.occur o' n')
  | mKeyValue {c k v c' k' v'} (y) :
      (∀ l, k = .literal l ↔ k' = .literal l) → R .val c k c' k' → R .val c v c' v' →
      StepRel x env env' R .map c (.keyValue k v y) c' (.keyValue k' v' y)
  | mRule {c s as c' s' as'} : LookRel env env' (R .map) c s as c' s' as' →
      StepRel x env env' R .map c (.rule s as) c' (.rule s' as')
  | mUnwrap {c s as c' s' as'}
      (P : Ctx → Node → Ctx → Node → Prop) :
      (∀ d n d' n', P d n d' n' →
        (∃ l l', n = .map l ∧ n' = .map l' ∧ All2 (fun n n' => R .map d n d' n') l l') ∨
        ((∀ l, n ≠ .map l) ∧ (∀ l, n' ≠ .map l))) →
      LookRel env env' P c s as c' s' as' →
      StepRel x env env' R .map c (.unwrap s as) c' (.unwrap s' as')
  | mGroup {c l c' l'} : All2 (fun n n' => R .map c n c' n') l l' →
      StepRel x env env' R .map c (.group l) c' (.group l')
  | mChoice {c l c' l'} : All2 (fun n n' => R .map c n c' n') l l' →
      StepRel x env env' R .map c (.choice l) c' (.choice l')
  | mInline {c l c' l'} : All2 (fun n n' => R .map c n c' n') l l' →
      StepRel x env env' R .map c (.choiceifyInline l) c' (.choiceifyInline l')
  | mChoiceify {c s as c' s' as'} : R .mchf c (.rule s as) c' (.rule s' as') →
      StepRel x env env' R .map c (.choiceify s as) c' (.choiceify s' as')
  | mLiteral (c l c' l') : StepRel x env env' R .map c (.literal l) c' (.literal l')
  | mPrelude (c l c' l') : StepRel x env env' R .map c (.prelude l) c' (.prelude l')
  | mMap (c l c' l') : StepRel x env env' R .map c (.map l) c' (.map l')
  | mArray (c l c' l') : StepRel x env env' R .map c (.array l) c' (.array l')
  | mRange (c a b i c' a' b' i') : StepRel x env env' R .map c (.range a b i) c' (.range a' b' i')
  | mCtl (c a b i c' a' b' i') : StepRel x env env' R .map c (.ctl a b i) c' (.ctl a' b' i')
  | mRegexp (c l c' l') : StepRel x env env' R .map c (.ctlRegexp l) c' (.ctlRegexp l')
  | mCbor (c l c' l') : StepRel x env env' R .map c (.ctlCbor l) c' (.ctlCbor l')
  -- map items of `&group`
  | jKeyValue {c k v y c' k' v' y'} : R .map c v c' v' →
      StepRel x env env' R .mitem c (.keyValue k v y) c' (.keyValue k' v' y')
  | jRule {c s as c' s' as'} : R .mchf c (.rule s as) c' (.rule s' as') →
      StepRel x env env' R .mitem c (.rule s as) c' (.rule s' as')
  | jOther {c n c' n'} : (∀ s as, n ≠ .rule s as) → (∀ k v y, n ≠ .keyValue k v y) →
      (∀ s as, n' ≠ .rule s as) → (∀ k v y, n' ≠ .keyValue k v y) → R .map c n c' n' →
      StepRel x env env' R .mitem c n c' n'
  | jLook {c s as c' s' as'}
      (P : Ctx → Node → Ctx → Node → Prop) :
      (∀ d n d' n', P d n d' n' →
        (∃ l l', n = .group l ∧ n' = .group l' ∧ All2 (fun n n' => R .mitem d n d' n') l l') ∨
        (∃ s as s' as', n = .rule s as ∧ n' = .rule s' as' ∧ R .mchf d n d' n') ∨
        ((∀ l, n ≠ .group l) ∧ (∀ s as, n ≠ .rule s as) ∧
          (∀ l, n' ≠ .group l) ∧ (∀ s as, n' ≠ .rule s as))) →
      LookRel env env' P c s as c' s' as' →
      StepRel x env env' R .mchf c (.rule s as) c' (.rule s' as')
  -- range endpoints
  | dLiteral (c l c') : StepRel x env env' R .deref c (.literal l) c' (.literal l)
  | dRule {c s as c' s' as'} : LookRel env env' (R .deref) c s as c' s' as' →
      StepRel x env env' R .deref c (.rule s as) c' (.rule s' as')
  | dOther {c n c' n'} : (∀ s as, n ≠ .rule s as) → (∀ l, n ≠ .literal l) →
      (∀ s as, n' ≠ .rule s as) → (∀ l, n' ≠ .literal l) → StepRel x env env' R .deref c n c' n'
  -- arguments of controls
  | hRule {c s as c' s' as'} : LookRel env env' (R .chase) c s as c' s' as' →
      StepRel x env env' R .chase c (.rule s as) c' (.rule s' as')
  | hLeaf {c n c' n'} : (∀ s as, n ≠ .rule s as) → (∀ s as, n' ≠ .rule s as) → LeafEq env env' n n' →
      StepRel x env env' R .chase c n c' n'

/-- `R` is preserved by each step and the external functions agree. -/
structure Simulation (x : Bool) (env env' : Env) (R : MRel) : Prop where
  regex : env.regexMatch = env'.regexMatch
  cbor : env.cborDecode = env'.cborDecode
  fmt : env.fmtF64 = env'.fmtF64
  disp : x = true → ∀ m c n c' n', R m c n c' n' → n.display env.fmtF64 = n'.display env.fmtF64
  step : ∀ m c n c' n', R m c n c' n' → StepRel x env env' R m c n c' n'

/-- The left functions `r` are simulated by the limit on the right. -/
structure SimRec (x : Bool) (env env' : Env) (R : MRel) (r : Rec) : Prop where
  val : ∀ c n c' n', R .val c n c' n' → ∀ v, RSim x (r.val v n c) ((lim env').val v n' c')
  arr : ∀ c n c' n', R .arr c n c' n' → ∀ w, SSim x (r.arr n w c) ((lim env').arr n' w c')
  map : ∀ c n c' n', R .map c n c' n' → ∀ w, SSim x (r.map n w c) ((lim env').map n' w c')
  chf : ∀ c s as c' s' as', R .chf c (.rule s as) c' (.rule s' as') →
    ∀ v, RSim x (r.chf s as v c) ((lim env').chf s' as' v c')
  mchf : ∀ c s as c' s' as', R .mchf c (.rule s as) c' (.rule s' as') →
    ∀ w, SSim x (r.mchf s as w c) ((lim env').mchf s' as' w c')
  deref : ∀ c n c' n', R .deref c n c' n' → RSim x (r.deref n c) ((lim env').deref n' c')
  chase : ∀ c n c' n', R .chase c n c' n' →
    (∃ m m', r.chase n c = .ok m ∧ (lim env').chase n' c' = .ok m' ∧ LeafEq env env' m m') ∨
    (∃ e, r.chase n c = .err e ∧ (lim env').chase n' c' = .err e) ∨ r.chase n c = .fuel

section
variable {x : Bool} {env env' : Env} {R : MRel} {r : Rec} (S : Simulation x env env' R) (H : SimRec x env env' R r)
include S H

theorem item_sim {c n c' n'} (h : R .item c n c' n') (v : Value) :
    RSim x (choiceifyItem r v c n) (choiceifyItem (lim env') v c' n') := by
  have hs := S.step _ _ _ _ _ h
  clear h
  cases hs with
  | iKeyValue h => exact H.val _ _ _ _ h v
  | iRule h => exact H.chf _ _ _ _ _ _ h v
  | iOther h1 h2 h3 h4 h5 =>
    have e1 : choiceifyItem r v c n = r.val v n c := by
      cases n <;> first | rfl | exact absurd rfl (h1 _ _) | exact absurd rfl (h2 _ _ _)
    have e2 : choiceifyItem (lim env') v c' n' = (lim env').val v n' c' := by
      cases n' <;> first | rfl | exact absurd rfl (h3 _ _) | exact absurd rfl (h4 _ _ _)
    rw [e1, e2]
    exact H.val _ _ _ _ h5 v

theorem mitem_sim {c n c' n'} (h : R .mitem c n c' n') (w : WMap) :
    SSim x (mapChoiceifyItem r c n w) (mapChoiceifyItem (lim env') c' n' w) := by
  have hs := S.step _ _ _ _ _ h
  clear h
  cases hs with
  | jKeyValue h => exact H.map _ _ _ _ h w
  | jRule h => exact H.mchf _ _ _ _ _ _ h w
  | jOther h1 h2 h3 h4 h5 =>
    have e1 : mapChoiceifyItem r c n w = r.map n w c := by
      cases n <;> first | rfl | exact absurd rfl (h1 _ _) | exact absurd rfl (h2 _ _ _)
    have e2 : mapChoiceifyItem (lim env') c' n' w = (lim env').map n' w c' := by
      cases n' <;> first | rfl | exact absurd rfl (h3 _ _) | exact absurd rfl (h4 _ _ _)
    rw [e1, e2]
    exact H.map _ _ _ _ h5 w

theorem arrayValue_sim {c n c' n'} (h : R .val c n c' n') (w : WArr) :
    SSim x (validateArrayValue env r n w c) (validateArrayValue env' (lim env') n' w c') := by
  unfold validateArrayValue
  cases w.array with
  | nil => exact .mismatch fun hx => by rw [← S.fmt, S.disp hx _ _ _ _ _ h]
  | cons x xs =>
    dsimp only
    rcases (H.val _ _ _ _ h x).cases with ⟨a, h1, h2⟩ | ⟨e, e', h1, h2, he⟩ | ⟨h1, h2⟩ | h1
    · rw [h1, h2]; exact .refl _
    · rw [h1, h2]; intro _; simp [SRes.er, he]
    · rw [h1, h2]; exact .refl _
    · rw [h1]; intro h; simp at h

omit S H in
theorem arrBody_plain {env : Env} {r : Rec} {n : Node} (h : n.plain = true) (w : WArr) (c : Ctx) :
    arrBody env r n w c = validateArrayValue env r n w c := by
  cases n <;> first | rfl | simp [Node.plain] at h

theorem arr_sim {c n c' n'} (h : R .arr c n c' n') (w : WArr) :
    SSim x (arrBody env r n w c) ((lim env').arr n' w c') := by
  have hs := S.step _ _ _ _ _ h
  clear h
  generalize hm : Mode.arr = m at hs
  cases hs <;> cases hm
  case aOccur hl ho h =>
    rw [arr_eq]
    simp only [arrBody, validateArrayOccur, ← hl]
    exact occurLoopS_sim (fun hx => by simp only [occurDisplay]; rw [← S.fmt, S.disp hx _ _ _ _ _ h, ho hx]) (H.arr _ _ _ _ h) _ _ _
  case aKeyValue h => rw [arr_eq]; exact arrayValue_sim S H h w
  case aStrip hx0 hsg h =>
    have ht := hsg.takesOne
    simp only [arrBody, validateArrayValue]
    cases hw : w.array with
    | nil =>
      obtain ⟨m, hm⟩ := ht.1 w hw
      dsimp only at hm
      rw [hm]
      exact .mismatch fun hx => by rw [hx0] at hx; cases hx
    | cons x xs =>
      dsimp only
      have h2' := ht.2 w x xs hw
      dsimp only [validate] at h2'
      rw [h2']
      rcases (H.val _ _ _ _ h x).cases with ⟨a, h1, h2⟩ | ⟨e, e', h1, h2, he⟩ | ⟨h1, h2⟩ | h1
      · rw [h1, h2]; exact .refl _
      · rw [h1, h2]; intro _; simp [SRes.er, he]
      · rw [h1, h2]; exact .refl _
      · rw [h1]; intro h; simp at h
  case aRule h =>
    rw [arr_eq]
    cases h with
    | error e h1 h2 => simp only [arrBody, h1, h2]; exact .refl _
    | ok h1 h2 h3 => simp only [arrBody, h1, h2]; exact H.arr _ _ _ _ h3 w
  case aUnwrap P hP h =>
    rw [arr_eq]
    cases h with
    | error e h1 h2 => simp only [arrBody, h1, h2]; exact .refl _
    | ok h1 h2 h3 =>
      simp only [arrBody, h1, h2]
      rcases hP _ _ _ _ h3 with ⟨l, l', rfl, rfl, ha⟩ | ⟨h4, h5⟩
      · exact seqLoopS_sim (ha.imp fun a b hab => H.arr _ _ _ _ hab) w
      · rename_i n n' d d'
        have e1 : validateArrayUnwrap r n w d = .err (.mismatch "unwrap array") w := by
          cases n <;> first | rfl | exact absurd rfl (h4 _)
        have e2 : validateArrayUnwrap (lim env') n' w d' = .err (.mismatch "unwrap array") w := by
          cases n' <;> first | rfl | exact absurd rfl (h5 _)
        rw [e1, e2]
        exact .refl _
  case aChoice h =>
    rw [arr_eq]
    exact choiceLoopS_sim (fun _ => by rw [h.length]) (fun e e' => Err.er_isFatal) (h.imp fun a b hab => H.arr _ _ _ _ hab) w
  case aGroup h =>
    rw [arr_eq]
    simp only [arrBody, validateArrayGroup]
    rcases (seqLoopS_sim (h.imp fun a b hab => H.arr _ _ _ _ hab) w.snapshot).cases with
      ⟨a, h1, h2⟩ | ⟨e, e', w', h1, h2, he⟩ | ⟨h1, h2⟩ | h1
    · rw [h1, h2]; exact .refl _
    · rw [h1, h2]
      dsimp only
      cases w'.rewind with
      | ok a => intro _; simp [SRes.er, he]
      | err a b => exact .refl _
      | panic => exact .refl _
      | fuel => exact .refl _
    · rw [h1, h2]; exact .refl _
    · rw [h1]; intro h; simp at h
  case aPlain h1 h2 h3 =>
    rw [arr_eq, arrBody_plain h1, arrBody_plain h2]
    exact arrayValue_sim S H h3 w

theorem mapKey_sim {c k c' k'} (hl : ∀ l, k = .literal l ↔ k' = .literal l) (hk : R .val c k c' k')
    (w : WMap) : RSim x (validateMapKey env r k w c) (validateMapKey env' (lim env') k' w c') := by
  by_cases h : ∃ l, k = .literal l
  · obtain ⟨l, h⟩ := h
    have h' := (hl l).mp h
    subst h h'
    simp only [validateMapKey, mapSearchLiteral]
    cases VMap.get w.map l.toValue
    · exact .mismatch fun _ => by rw [S.fmt]
    · exact .refl _
  · have h1 : validateMapKey env r k w c = mapSearch env r k w c := by
      cases k <;> first | rfl | exact absurd ⟨_, rfl⟩ h
    have h2 : validateMapKey env' (lim env') k' w c' = mapSearch env' (lim env') k' w c' := by
      cases k' <;> first | rfl | exact absurd ⟨_, (hl _).mpr rfl⟩ h
    rw [h1, h2]
    exact mapSearchLoop_sim (fun hx => by rw [← S.fmt, S.disp hx _ _ _ _ _ hk]) (H.val _ _ _ _ hk) _

theorem map_sim {c n c' n'} (h : R .map c n c' n') (w : WMap) :
    SSim x (mapBody env r n w c) ((lim env').map n' w c') := by
  have hstop : ∀ e e' : Err, e'.er x = e.er x → (!e'.isMismatch) = (!e.isMismatch) :=
    fun e e' h => by rw [Err.er_isMismatch h]
  rw [map_eq]
  have hs := S.step _ _ _ _ _ h
  clear h
  generalize hm : Mode.map = m at hs
  cases hs <;> cases hm
  case mOccur hl ho h =>
    simp only [mapBody, validateMapOccur, ← hl]
    exact occurLoopS_sim (fun hx => by simp only [occurDisplay]; rw [← S.fmt, S.disp hx _ _ _ _ _ h, ho hx]) (H.map _ _ _ _ h) _ _ _
  case mKeyValue y hl hk hv =>
    simp only [mapBody, validateMapKeyvalue]
    rcases (mapKey_sim S H hl hk w).cases with ⟨a, h1, h2⟩ | ⟨e, e', h1, h2, he⟩ | ⟨h1, h2⟩ | h1
    · rw [h1, h2]
      dsimp only
      rcases (H.val _ _ _ _ hv a.2).cases with ⟨a, h1, h2⟩ | ⟨e, e', h1, h2, he⟩ | ⟨h1, h2⟩ | h1
      · rw [h1, h2]; exact .refl _
      · rw [h1, h2]
        intro _
        cases x <;> cases y <;> cases e <;> cases e' <;> simp_all [SRes.er, Err.er]
      · rw [h1, h2]; exact .refl _
      · rw [h1]; intro h; simp at h
    · rw [h1, h2]; intro _; simp [SRes.er, he]
    · rw [h1, h2]; exact .refl _
    · rw [h1]; intro h; simp at h
  case mRule h =>
    cases h with
    | error e h1 h2 => simp only [mapBody, h1, h2]; exact .refl _
    | ok h1 h2 h3 => simp only [mapBody, h1, h2]; exact H.map _ _ _ _ h3 w
  case mUnwrap P hP h =>
    cases h with
    | error e h1 h2 => simp only [mapBody, h1, h2]; exact .refl _
    | ok h1 h2 h3 =>
      simp only [mapBody, h1, h2]
      rcases hP _ _ _ _ h3 with ⟨l, l', rfl, rfl, ha⟩ | ⟨h4, h5⟩
      · exact seqLoopS_sim (ha.imp fun a b hab => H.map _ _ _ _ hab) w
      · rename_i n n' d d'
        have e1 : validateMapUnwrap r n w d = .err (.mismatch "unwrap map") w := by
          cases n <;> first | rfl | exact absurd rfl (h4 _)
        have e2 : validateMapUnwrap (lim env') n' w d' = .err (.mismatch "unwrap map") w := by
          cases n' <;> first | rfl | exact absurd rfl (h5 _)
        rw [e1, e2]
        exact .refl _
  case mGroup h =>
    simp only [mapBody, validateMapGroup]
    rcases (seqLoopS_sim (h.imp fun a b hab => H.map _ _ _ _ hab) w.snapshot).cases with
      ⟨a, h1, h2⟩ | ⟨e, e', w', h1, h2, he⟩ | ⟨h1, h2⟩ | h1
    · rw [h1, h2]; exact .refl _
    · rw [h1, h2]
      dsimp only
      cases w'.rewind with
      | ok a => intro _; simp [SRes.er, Err.er_eraseMapcut he]
      | err a b => exact .refl _
      | panic => exact .refl _
      | fuel => exact .refl _
    · rw [h1, h2]; exact .refl _
    · rw [h1]; intro h; simp at h
  case mChoice h => exact choiceLoopS_sim (fun _ => by rw [h.length]) hstop (h.imp fun a b hab => H.map _ _ _ _ hab) w
  case mInline h => exact choiceLoopS_sim (fun _ => by rw [h.length]) hstop (h.imp fun a b hab => H.map _ _ _ _ hab) w
  case mChoiceify h => exact H.mchf _ _ _ _ _ _ h w
  all_goals exact .refl _

theorem chf_sim {c s as c' s' as'} (h : R .chf c (.rule s as) c' (.rule s' as')) (v : Value) :
    RSim x (chfBody env r s as v c) ((lim env').chf s' as' v c') := by
  rw [chf_eq]
  have hs := S.step _ _ _ _ _ h
  clear h
  cases hs with
  | cLook P hP h =>
    cases h with
    | error e h1 h2 => simp only [chfBody, h1, h2]; exact .refl _
    | ok h1 h2 h3 =>
      simp only [chfBody, h1, h2, Res.ofExcept, Res.bind]
      rcases hP _ _ _ _ h3 with ⟨l, l', rfl, rfl, ha⟩ | ⟨s, as, s', as', rfl, rfl, hr⟩ | ⟨h4, h5, h6, h7⟩
      · exact choiceLoop_sim (fun _ => by rw [ha.length]) (ha.imp fun a b hab => item_sim S H hab v)
      · exact H.chf _ _ _ _ _ _ hr v
      · rename_i n n' d d'
        have : RSim x (.err (.structural "improper choiceify target") : Res Unit)
          (.err (.structural "improper choiceify target")) := .refl _
        cases n <;> cases n' <;>
          first | exact this | exact absurd rfl (h4 _) | exact absurd rfl (h5 _ _) |
            exact absurd rfl (h6 _) | exact absurd rfl (h7 _ _)

theorem mchf_sim {c s as c' s' as'} (h : R .mchf c (.rule s as) c' (.rule s' as')) (w : WMap) :
    SSim x (mchfBody env r s as w c) ((lim env').mchf s' as' w c') := by
  have hstop : ∀ e e' : Err, e'.er x = e.er x → (!e'.isMismatch) = (!e.isMismatch) :=
    fun e e' h => by rw [Err.er_isMismatch h]
  rw [mchf_eq]
  have hs := S.step _ _ _ _ _ h
  clear h
  cases hs with
  | jLook P hP h =>
    cases h with
    | error e h1 h2 => simp only [mchfBody, h1, h2]; exact .refl _
    | ok h1 h2 h3 =>
      simp only [mchfBody, h1, h2]
      rcases hP _ _ _ _ h3 with ⟨l, l', rfl, rfl, ha⟩ | ⟨s, as, s', as', rfl, rfl, hr⟩ | ⟨h4, h5, h6, h7⟩
      · exact choiceLoopS_sim (fun _ => by rw [ha.length]) hstop (ha.imp fun a b hab => mitem_sim S H hab) w
      · exact H.mchf _ _ _ _ _ _ hr w
      · rename_i n n' d d'
        have : SSim x (.err (.structural "improper map choiceify target") w)
          (.err (.structural "improper map choiceify target") w) := .refl _
        cases n <;> cases n' <;>
          first | exact this | exact absurd rfl (h4 _) | exact absurd rfl (h5 _ _) |
            exact absurd rfl (h6 _) | exact absurd rfl (h7 _ _)

theorem deref_sim {c n c' n'} (h : R .deref c n c' n') :
    RSim x (derefBody env r n c) ((lim env').deref n' c') := by
  rw [deref_eq]
  have hs := S.step _ _ _ _ _ h
  clear h
  generalize hm : Mode.deref = m at hs
  cases hs <;> cases hm
  case dLiteral => exact .refl _
  case dRule h =>
    cases h with
    | error e h1 h2 => simp only [derefBody, h1, h2]; exact .refl _
    | ok h1 h2 h3 => simp only [derefBody, h1, h2]; exact H.deref _ _ _ _ h3
  case dOther h1 h2 h3 h4 =>
    have : RSim x (.err (.structural "confusing type on range operator") : Res Literal)
      (.err (.structural "confusing type on range operator")) := .refl _
    cases n <;> cases n' <;>
      first | exact this | exact absurd rfl (h1 _ _) | exact absurd rfl (h2 _) |
        exact absurd rfl (h3 _ _) | exact absurd rfl (h4 _)

theorem chase_sim {c n c' n'} (h : R .chase c n c' n') :
    (∃ m m', chaseBody env r n c = .ok m ∧ (lim env').chase n' c' = .ok m' ∧ LeafEq env env' m m') ∨
    (∃ e, chaseBody env r n c = .err e ∧ (lim env').chase n' c' = .err e) ∨
      chaseBody env r n c = .fuel := by
  rw [chase_eq]
  have hs := S.step _ _ _ _ _ h
  clear h
  generalize hm : Mode.chase = m at hs
  cases hs <;> cases hm
  case hRule h =>
    cases h with
    | error e h1 h2 => simp only [chaseBody, h1, h2]; right; left; exact ⟨e, rfl, rfl⟩
    | ok h1 h2 h3 => simp only [chaseBody, h1, h2]; exact H.chase _ _ _ _ h3
  case hLeaf h1 h2 h3 =>
    left
    refine ⟨n, n', ?_, ?_, h3⟩
    · cases n <;> first | rfl | exact absurd rfl (h1 _ _)
    · cases n' <;> first | rfl | exact absurd rfl (h2 _ _)

theorem chase_bind {c n c' n'} (h : R .chase c n c' n') {f g : Node → Res Unit}
    (hf : ∀ m m', LeafEq env env' m m' → RSim x (f m) (g m')) :
    RSim x ((r.chase n c).bind f) (((lim env').chase n' c').bind g) := by
  rcases H.chase _ _ _ _ h with ⟨m, m', h1, h2, h3⟩ | ⟨e, h1, h2⟩ | h1
  · rw [h1, h2]; exact hf _ _ h3
  · rw [h1, h2]; exact .refl _
  · rw [h1]; intro h; simp at h

omit S H in
theorem LeafEq.cases {m m' : Node} (h : LeafEq env env' m m') :
    (∃ p, m = .prelude p ∧ m' = .prelude p) ∨
      ((∀ p, m ≠ .prelude p) ∧ (∀ p, m' ≠ .prelude p) ∧ m.display env.fmtF64 = m'.display env'.fmtF64) := by
  by_cases hp : ∃ p, m = .prelude p
  · obtain ⟨p, hp⟩ := hp
    exact .inl ⟨p, hp, (h.prel p).mp hp⟩
  · exact .inr ⟨fun p e => hp ⟨p, e⟩, fun p e => hp ⟨p, (h.prel p).mpr e⟩, h.disp⟩

local macro "target" ht:term : tactic => `(tactic|
  (rcases LeafEq.cases $ht with ⟨p, hp1, hp2⟩ | ⟨h3, h4, hd⟩
   · subst hp1 hp2
     cases p <;> exact RSim.refl _
   · split <;> first
      | exact absurd rfl (h3 _)
      | (split <;> first | exact absurd rfl (h4 _) | exact RSim.ofEq (by rw [hd]))))

theorem ctl_sim {c a b c' a' b'} (o : CtlOp) (h1 : R .chase c a c' a') (h2 : R .chase c b c' b')
    (v : Value) : RSim x (validateControl env r o a b v c) (validateControl env' (lim env') o a' b' v c') := by
  cases o with
  | size =>
    refine chase_bind S H h2 fun m m' hm => RSim.bind (.ofEq hm.size) fun sz _ =>
      chase_bind S H h1 fun t t' ht => ?_
    target ht
  | lt =>
    refine chase_bind S H h2 fun m m' hm => RSim.bind (.ofEq (hm.limit _)) fun _ _ =>
      chase_bind S H h1 fun t t' ht => ?_
    target ht
  | le =>
    refine chase_bind S H h2 fun m m' hm => RSim.bind (.ofEq (hm.limit _)) fun _ _ =>
      chase_bind S H h1 fun t t' ht => ?_
    target ht
  | gt =>
    refine chase_bind S H h2 fun m m' hm => RSim.bind (.ofEq (hm.limit _)) fun _ _ =>
      chase_bind S H h1 fun t t' ht => ?_
    target ht
  | ge =>
    refine chase_bind S H h2 fun m m' hm => RSim.bind (.ofEq (hm.limit _)) fun _ _ =>
      chase_bind S H h1 fun t t' ht => ?_
    target ht

omit S H in
theorem rangeMatch_sim (a b : String) (hab : x = true → a = b) (s e : Literal) (v : Value) (i : Bool) :
    RSim x (rangeMatch a s e v i) (rangeMatch b s e v i) := by
  cases s <;> cases e <;> cases v <;> simp only [rangeMatch, sameKind] <;>
    (try split) <;> first | exact .refl _ | exact .mismatch hab | (rename_i h; simp at h)

theorem val_sim {c n c' n'} (h : R .val c n c' n') (v : Value) :
    RSim x (valBody env r v n c) ((lim env').val v n' c') := by
  rw [val_eq]
  have hs := S.step _ _ _ _ _ h
  clear h
  generalize hm : Mode.val = m at hs
  cases hs <;> cases hm
  case vLiteral l =>
    simp only [valBody, validateLiteral]
    split
    · exact .refl _
    · exact .mismatch fun _ => by rw [S.fmt]
  case vPrelude => exact .refl _
  case vRegexp =>
    simp only [valBody, validateControlRegexp, S.regex]
    exact .refl _
  case vChoice h => exact choiceLoop_sim (fun _ => by rw [h.length]) (h.imp fun a b hab => H.val _ _ _ _ hab v)
  case vMap h =>
    simp only [valBody, validateMap]
    cases v with
    | map m =>
      dsimp only
      rcases (seqLoopS_sim (h.imp fun a b hab => H.map _ _ _ _ hab) (WMap.new m)).cases with
        ⟨a, h1, h2⟩ | ⟨e, e', w', h1, h2, he⟩ | ⟨h1, h2⟩ | h1
      · rw [h1, h2]; exact .refl _
      · rw [h1, h2]; intro _; simp [Res.er, Err.er_eraseMapcut he]
      · rw [h1, h2]; exact .refl _
      · rw [h1]; intro h; simp at h
    | _ => exact .refl _
  case vArray h =>
    simp only [valBody, validateArray]
    cases v with
    | array m =>
      dsimp only
      rcases (seqLoopS_sim (h.imp fun a b hab => H.arr _ _ _ _ hab) (WArr.new m)).cases with
        ⟨a, h1, h2⟩ | ⟨e, e', w', h1, h2, he⟩ | ⟨h1, h2⟩ | h1
      · rw [h1, h2]; exact .refl _
      · rw [h1, h2]; intro _; simp [Res.er, he]
      · rw [h1, h2]; exact .refl _
      · rw [h1]; intro h; simp at h
    | _ => exact .refl _
  case vRule h =>
    cases h with
    | error e h1 h2 => simp only [valBody, validateRule, h1, h2]; exact .refl _
    | ok h1 h2 h3 =>
      simp only [valBody, validateRule, h1, h2, Res.ofExcept, Res.bind]; exact H.val _ _ _ _ h3 v
  case vGroup h =>
    simp only [valBody]
    cases h with
    | nil => exact .refl _
    | cons h1 h2 =>
      cases h2 with
      | nil => exact H.val _ _ _ _ h1 v
      | cons _ _ => exact .refl _
  case vRange h1 h2 =>
    exact RSim.bind (H.deref _ _ _ _ h1) fun s _ => RSim.bind (H.deref _ _ _ _ h2) fun e _ =>
      rangeMatch_sim _ _ (fun hx => by
        simp only [rangeDisplay]; rw [← S.fmt, S.disp hx _ _ _ _ _ h1, S.disp hx _ _ _ _ _ h2]) _ _ _ _
  case vCtl h1 h2 => exact ctl_sim S H _ h1 h2 v
  case vCbor h =>
    simp only [valBody, validateControlCbor]
    cases v with
    | bytes b =>
      dsimp only
      rw [S.cbor]
      cases env'.cborDecode b with
      | error m => exact .refl _
      | ok x => exact RSim.bind (.refl _) fun u _ => H.val _ _ _ _ h u
    | _ => exact .refl _
  case vChoiceify h => exact H.chf _ _ _ _ _ _ h v
  case vInline h =>
    exact choiceLoop_sim (fun _ => by rw [h.length]) (h.imp fun a b hab => item_sim S H hab v)
  all_goals exact .refl _

end

theorem fns_sim {x : Bool} {env env' : Env} {R : MRel} (S : Simulation x env env' R) :
    ∀ k, SimRec x env env' R (fns env k)
  | 0 => by
    constructor
    all_goals intros
    all_goals first | (intro h; simp [fns, Rec.bot] at h; done) | (right; right; rfl)
  | k + 1 => by
    have H := fns_sim S k
    exact {
      val := fun _ _ _ _ h v => val_sim S H h v
      arr := fun _ _ _ _ h w => arr_sim S H h w
      map := fun _ _ _ _ h w => map_sim S H h w
      chf := fun _ _ _ _ _ _ h v => chf_sim S H h v
      mchf := fun _ _ _ _ _ _ h w => mchf_sim S H h w
      deref := fun _ _ _ _ h => deref_sim S H h
      chase := fun _ _ _ _ h => chase_sim S H h }

/-- The simulation theorem for whole validations. -/
theorem validate_sim {x : Bool} {env env' : Env} {R : MRel} (S : Simulation x env env' R) {c c' : Ctx} {n n' : Node}
    (hc : CtxOK c) (h : R .val c n c' n') (v : Value) :
    (validate env' v n' c').er x = (validate env v n c).er x := by
  obtain ⟨k, hk⟩ := (lim_ev env).val v n c
  have h1 := (fns_sim S k).val _ _ _ _ h v
  have h2 := hk k (Nat.le_refl _)
  dsimp only at h2
  rw [h2] at h1
  exact h1 (lim_val_returns env v n hc)

end Cddl
