import Verif.Spec.Counted

/-! # All calls that matter are counted, and only calls that are made -/

namespace Cddl

section
variable {σ : Type}

theorem choiceLoopN_all {f f' : Node → Res Unit} {g : Node → Nat} (h : ∀ n, g n = 0 → f n = f' n) (m : String) :
    ∀ {l : List Node}, choiceLoopN f g l = 0 → choiceLoop f m l = choiceLoop f' m l
  | [], _ => rfl
  | n :: l, h0 => by
    simp only [choiceLoopN, Nat.add_eq_zero_iff] at h0
    obtain ⟨h1, h2⟩ := h0
    simp only [choiceLoop, ← h n h1]
    cases hf : f n with
    | err e =>
      rw [hf] at h2
      dsimp only at h2 ⊢
      split
      · rfl
      · rw [if_neg ‹_›] at h2; exact choiceLoopN_all h m h2
    | _ => rfl

theorem choiceLoopSN_all {f f' : Node → σ → SRes σ} {g : Node → σ → Nat} (h : ∀ n w, g n w = 0 → f n w = f' n w)
    (stop : Err → Bool) (m : String) :
    ∀ {l : List Node} {w : σ}, choiceLoopSN f g stop l w = 0 → choiceLoopS f stop m l w = choiceLoopS f' stop m l w
  | [], _, _ => rfl
  | n :: l, w, h0 => by
    simp only [choiceLoopSN, Nat.add_eq_zero_iff] at h0
    obtain ⟨h1, h2⟩ := h0
    simp only [choiceLoopS, ← h n w h1]
    cases hf : f n w with
    | err e w' =>
      rw [hf] at h2
      dsimp only at h2 ⊢
      split
      · rfl
      · rw [if_neg ‹_›] at h2; exact choiceLoopSN_all h stop m h2
    | _ => rfl

theorem seqLoopSN_all {f f' : Node → σ → SRes σ} {g : Node → σ → Nat} (h : ∀ n w, g n w = 0 → f n w = f' n w) :
    ∀ {l : List Node} {w : σ}, seqLoopSN f g l w = 0 → seqLoopS f l w = seqLoopS f' l w
  | [], _, _ => rfl
  | n :: l, w, h0 => by
    simp only [seqLoopSN, Nat.add_eq_zero_iff] at h0
    obtain ⟨h1, h2⟩ := h0
    simp only [seqLoopS, ← h n w h1]
    cases hf : f n w with
    | ok w' => rw [hf] at h2; exact seqLoopSN_all h h2
    | _ => rfl

theorem occurLoopSN_all {f f' : σ → SRes σ} {g : σ → Nat} (h : ∀ w, g w = 0 → f w = f' w) (lo up : Nat) (m : String) :
    ∀ {k i : Nat} {w : σ}, occurLoopSN f g up k i w = 0 → occurLoopS f lo up m k i w = occurLoopS f' lo up m k i w
  | 0, _, _, _ => rfl
  | k + 1, i, w, h0 => by
    simp only [occurLoopSN, Nat.add_eq_zero_iff] at h0
    obtain ⟨h1, h2⟩ := h0
    simp only [occurLoopS, ← h w h1]
    cases hf : f w with
    | ok w' =>
      rw [hf] at h2
      dsimp only at h2 ⊢
      split
      · rfl
      · rw [if_neg ‹_›] at h2; exact occurLoopSN_all h lo up m h2
    | _ => rfl

theorem mapSearchLoopN_all {f f' : Value → Res Unit} {g : Value → Nat} (h : ∀ v, g v = 0 → f v = f' v) (m : String) :
    ∀ {l : VMap}, mapSearchLoopN f g l = 0 → mapSearchLoop f m l = mapSearchLoop f' m l
  | [], _ => rfl
  | (k, x) :: l, h0 => by
    simp only [mapSearchLoopN, Nat.add_eq_zero_iff] at h0
    obtain ⟨h1, h2⟩ := h0
    simp only [mapSearchLoop, ← h k h1]
    cases hf : f k with
    | err e => rw [hf] at h2; exact mapSearchLoopN_all h m h2
    | _ => rfl

theorem choiceLoopN_made {f : Node → Res Unit} {g : Node → Nat} (h : ∀ n, 0 < g n → f n = .panic) (m : String) :
    ∀ {l : List Node}, 0 < choiceLoopN f g l → choiceLoop f m l = .panic
  | [], h0 => by simp [choiceLoopN] at h0
  | n :: l, h0 => by
    simp only [choiceLoopN] at h0
    simp only [choiceLoop]
    by_cases hg : 0 < g n
    · rw [h n hg]
    · rw [Nat.eq_zero_of_not_pos hg, Nat.zero_add] at h0
      cases hf : f n with
      | err e =>
        rw [hf] at h0
        dsimp only at h0 ⊢
        split
        · rw [if_pos ‹_›] at h0; simp at h0
        · rw [if_neg ‹_›] at h0; exact choiceLoopN_made h m h0
      | _ => simp [hf] at h0

theorem choiceLoopSN_made {f : Node → σ → SRes σ} {g : Node → σ → Nat} (h : ∀ n w, 0 < g n w → f n w = .panic)
    (stop : Err → Bool) (m : String) :
    ∀ {l : List Node} {w : σ}, 0 < choiceLoopSN f g stop l w → choiceLoopS f stop m l w = .panic
  | [], _, h0 => by simp [choiceLoopSN] at h0
  | n :: l, w, h0 => by
    simp only [choiceLoopSN] at h0
    simp only [choiceLoopS]
    by_cases hg : 0 < g n w
    · rw [h n w hg]
    · rw [Nat.eq_zero_of_not_pos hg, Nat.zero_add] at h0
      cases hf : f n w with
      | err e w' =>
        rw [hf] at h0
        dsimp only at h0 ⊢
        split
        · rw [if_pos ‹_›] at h0; simp at h0
        · rw [if_neg ‹_›] at h0; exact choiceLoopSN_made h stop m h0
      | _ => simp [hf] at h0

theorem seqLoopSN_made {f : Node → σ → SRes σ} {g : Node → σ → Nat} (h : ∀ n w, 0 < g n w → f n w = .panic) :
    ∀ {l : List Node} {w : σ}, 0 < seqLoopSN f g l w → seqLoopS f l w = .panic
  | [], _, h0 => by simp [seqLoopSN] at h0
  | n :: l, w, h0 => by
    simp only [seqLoopSN] at h0
    simp only [seqLoopS]
    by_cases hg : 0 < g n w
    · rw [h n w hg]
    · rw [Nat.eq_zero_of_not_pos hg, Nat.zero_add] at h0
      cases hf : f n w with
      | ok w' => rw [hf] at h0; exact seqLoopSN_made h h0
      | _ => simp [hf] at h0

theorem occurLoopSN_made {f : σ → SRes σ} {g : σ → Nat} (h : ∀ w, 0 < g w → f w = .panic) (lo up : Nat) (m : String) :
    ∀ {k i : Nat} {w : σ}, 0 < occurLoopSN f g up k i w → occurLoopS f lo up m k i w = .panic
  | 0, _, _, h0 => by simp [occurLoopSN] at h0
  | k + 1, i, w, h0 => by
    simp only [occurLoopSN] at h0
    simp only [occurLoopS]
    by_cases hg : 0 < g w
    · rw [h w hg]
    · rw [Nat.eq_zero_of_not_pos hg, Nat.zero_add] at h0
      cases hf : f w with
      | ok w' =>
        rw [hf] at h0
        dsimp only at h0 ⊢
        split
        · rw [if_pos ‹_›] at h0; simp at h0
        · rw [if_neg ‹_›] at h0; exact occurLoopSN_made h lo up m h0
      | _ => simp [hf] at h0

theorem mapSearchLoopN_made {f : Value → Res Unit} {g : Value → Nat} (h : ∀ v, 0 < g v → f v = .panic) (m : String) :
    ∀ {l : VMap}, 0 < mapSearchLoopN f g l → mapSearchLoop f m l = .panic
  | [], h0 => by simp [mapSearchLoopN] at h0
  | (k, x) :: l, h0 => by
    simp only [mapSearchLoopN] at h0
    simp only [mapSearchLoop]
    by_cases hg : 0 < g k
    · rw [h k hg]
    · rw [Nat.eq_zero_of_not_pos hg, Nat.zero_add] at h0
      cases hf : f k with
      | err e => rw [hf] at h0; exact mapSearchLoopN_made h m h0
      | _ => simp [hf] at h0
end

/-! ## All calls that matter -/

/-- Calls that cost nothing get the same answer. -/
structure Free (a b : Rec) (x : Costs) : Prop where
  val : ∀ {v n c}, x.val v n c = 0 → a.val v n c = b.val v n c
  chf : ∀ {s as v c}, x.chf s as v c = 0 → a.chf s as v c = b.chf s as v c
  arr : ∀ {n w c}, x.arr n w c = 0 → a.arr n w c = b.arr n w c
  map : ∀ {n w c}, x.map n w c = 0 → a.map n w c = b.map n w c
  mchf : ∀ {s as w c}, x.mchf s as w c = 0 → a.mchf s as w c = b.mchf s as w c
  deref : ∀ {n c}, x.deref n c = 0 → a.deref n c = b.deref n c
  chase : ∀ {n c}, x.chase n c = 0 → a.chase n c = b.chase n c

theorem differ_free (a b : Rec) : Free a b (.differ a b) := by
  constructor <;> intros <;> rename_i h <;> simp only [Costs.differ] at h <;> split at h <;> first | assumption | cases h

section
variable {env : Env} {a b : Rec} {x : Costs} (F : Free a b x)
include F

theorem derefN_all {n : Node} {c : Ctx} (h : derefN env x n c = 1) : derefBody env a n c = derefBody env b n c := by
  unfold derefN at h
  unfold derefBody
  split <;> try rfl
  dsimp only [afterLookup] at h
  rename_i s as
  cases hl : c.lookupRule env s as with
  | ok p => rw [hl] at h; exact F.deref (by dsimp only at h; omega)
  | error e => rfl

theorem chaseN_all {n : Node} {c : Ctx} (h : chaseN env x n c = 1) : chaseBody env a n c = chaseBody env b n c := by
  unfold chaseN at h
  unfold chaseBody
  split <;> try rfl
  dsimp only [afterLookup] at h
  rename_i s as
  cases hl : c.lookupRule env s as with
  | ok p => rw [hl] at h; exact F.chase (by dsimp only at h; omega)
  | error e => rfl

theorem rangeN_all {s t : Node} {i : Bool} {v : Value} {c : Ctx} (h : validateRangeN a x s t c = 0) :
    validateRange env a s t i v c = validateRange env b s t i v c := by
  simp only [validateRangeN, Nat.add_eq_zero_iff] at h
  simp only [validateRange, ← F.deref h.1]
  cases hd : a.deref s c with
  | ok l => rw [hd] at h; simp only [Res.bind, F.deref h.2]
  | _ => rfl

theorem controlN_all {op : CtlOp} {t z : Node} {v : Value} {c : Ctx} (h : validateControlN env a x op t z c = 0) :
    validateControl env a op t z v c = validateControl env b op t z v c := by
  simp only [validateControlN, Nat.add_eq_zero_iff] at h
  obtain ⟨h1, h2⟩ := h
  have hz := F.chase h1
  cases hc : a.chase z c with
  | ok m =>
    rw [hc] at h2 hz
    cases op
    case size =>
      simp only [validateControl, validateControlSize, hc, ← hz, Res.bind]
      cases hn : normalizeSizeRange env m with
      | ok s => simp only [hn, if_true] at h2; simp only [F.chase h2]
      | _ => rfl
    all_goals
      simp only [validateControl, validateControlLt, validateControlLe, validateControlGt, validateControlGe, hc, ← hz,
        Res.bind]
      by_cases hl : ∃ i, m = .literal (.int i)
      · obtain ⟨i, rfl⟩ := hl
        simp only [limitOf, if_true] at h2
        simp only [limitOf, F.chase h2]
      · have : ∀ op, ∃ e, limitOf env op m = .err e := by
          intro op
          unfold limitOf
          split
          · exact absurd ⟨_, rfl⟩ hl
          · exact ⟨_, rfl⟩
        obtain ⟨e1, h1⟩ := this "lt"
        obtain ⟨e2, h2⟩ := this "le"
        obtain ⟨e3, h3⟩ := this "gt"
        obtain ⟨e4, h4⟩ := this "ge"
        simp only [h1, h2, h3, h4]
  | _ =>
    rw [hc] at hz
    cases op <;>
      simp only [validateControl, validateControlSize, validateControlLt, validateControlLe, validateControlGt,
        validateControlGe, hc, ← hz, Res.bind]

theorem cborN_all {n : Node} {v : Value} {c : Ctx} (h : validateControlCborN env x n v c = 0) :
    validateControlCbor env a n v c = validateControlCbor env b n v c := by
  unfold validateControlCborN at h
  unfold validateControlCbor
  split <;> try rfl
  dsimp only at h
  split <;> try rfl
  rename_i hd
  rw [hd] at h
  dsimp only at h
  cases hv : Cbor.toValue _ with
  | ok w => rw [hv] at h; exact F.val h
  | error e => rfl

theorem choiceifyItemN_all {n : Node} {v : Value} {c : Ctx} (h : choiceifyItemN x v c n = 0) :
    choiceifyItem a v c n = choiceifyItem b v c n := by
  unfold choiceifyItemN at h
  unfold choiceifyItem
  cases n <;> first | exact F.val h | exact F.chf h

theorem chfN_all {s : String} {as : List Node} {v : Value} {c : Ctx} (h : chfN env a x s as v c = 1) :
    chfBody env a s as v c = chfBody env b s as v c := by
  unfold chfN afterLookup at h
  unfold chfBody
  cases hl : c.lookupRule env s as with
  | ok p =>
    rw [hl] at h
    simp only [Res.ofExcept, Res.bind]
    dsimp only at h
    split <;> try rfl
    · rename_i hp
      rw [hp] at h
      exact choiceLoopN_all (fun n hn => choiceifyItemN_all F hn) _ (Nat.add_eq_left.mp h)
    · rename_i hp
      rw [hp] at h
      exact F.chf (by dsimp only at h; omega)
  | error e => rfl

theorem arrayValueN_all {n : Node} {w : WArr} {c : Ctx} (h : arrayValueN x n w c = 0) :
    validateArrayValue env a n w c = validateArrayValue env b n w c := by
  unfold arrayValueN at h
  unfold validateArrayValue
  split
  · rename_i hw
    rw [hw] at h
    rw [F.val h]
  · rfl

theorem arrN_all {n : Node} {w : WArr} {c : Ctx} (h : arrN env a x n w c = 1) : arrBody env a n w c = arrBody env b n w c := by
  have hs : ∀ {l : List Node} {w : WArr} {c : Ctx}, arraySeqN a x l w c = 0 →
      seqLoopS (fun m w => a.arr m w c) l w = seqLoopS (fun m w => b.arr m w c) l w :=
    fun h => seqLoopSN_all (fun n w hn => F.arr hn) h
  have hv : ∀ {n : Node}, 1 + arrayValueN x n w c = 1 → validateArrayValue env a n w c = validateArrayValue env b n w c :=
    fun h => arrayValueN_all F (by omega)
  unfold arrN at h
  cases n <;> dsimp only at h <;> dsimp only [arrBody] <;> try exact hv h
  case occur => exact occurLoopSN_all (fun w hn => F.arr hn) _ _ _ (by omega)
  case rule s as =>
    unfold afterLookup at h
    split
    · rename_i hl
      rw [hl] at h
      exact F.arr (by dsimp only at h; omega)
    · rfl
  case unwrap s as =>
    unfold afterLookup at h
    split
    · rename_i p hl
      rw [hl] at h
      dsimp only at h
      unfold validateArrayUnwrap
      split
      · rename_i hp; rw [hp] at h; exact hs (by dsimp only at h; omega)
      · rfl
    · rfl
  case choice => exact choiceLoopSN_all (fun n w hn => F.arr hn) _ _ (by omega)
  case group =>
    unfold validateArrayGroup
    rw [hs (by omega)]

theorem mapKeyN_all {n : Node} {w : WMap} {c : Ctx} (h : mapKeyN a x n w c = 0) :
    validateMapKey env a n w c = validateMapKey env b n w c := by
  unfold mapKeyN at h
  unfold validateMapKey
  cases n <;> first | rfl | exact mapSearchLoopN_all (fun v hv => F.val hv) _ h

theorem mapKeyvalueN_all {k n : Node} {i : Bool} {w : WMap} {c : Ctx} (h : mapKeyvalueN env a x k n w c = 0) :
    validateMapKeyvalue env a k n i w c = validateMapKeyvalue env b k n i w c := by
  simp only [mapKeyvalueN, Nat.add_eq_zero_iff] at h
  unfold validateMapKeyvalue
  rw [← mapKeyN_all F h.1]
  cases hk : validateMapKey env a k w c with
  | ok p => rw [hk] at h; dsimp only at h ⊢; rw [F.val h.2]
  | _ => rfl

theorem mapChoiceifyItemN_all {n : Node} {w : WMap} {c : Ctx} (h : mapChoiceifyItemN x c n w = 0) :
    mapChoiceifyItem a c n w = mapChoiceifyItem b c n w := by
  unfold mapChoiceifyItemN at h
  unfold mapChoiceifyItem
  cases n <;> first | exact F.map h | exact F.mchf h

theorem mchfN_all {s : String} {as : List Node} {w : WMap} {c : Ctx} (h : mchfN env a x s as w c = 1) :
    mchfBody env a s as w c = mchfBody env b s as w c := by
  unfold mchfN afterLookup at h
  unfold mchfBody
  cases hl : c.lookupRule env s as with
  | ok p =>
    rw [hl] at h
    dsimp only at h ⊢
    split <;> try rfl
    · rename_i hp
      rw [hp] at h
      exact choiceLoopSN_all (fun n w hn => mapChoiceifyItemN_all F hn) _ _ (Nat.add_eq_left.mp h)
    · rename_i hp
      rw [hp] at h
      exact F.mchf (by dsimp only at h; omega)
  | error e => rfl

theorem mapSeqN_all {l : List Node} {w : WMap} {c : Ctx} (h : mapSeqN a x l w c = 0) :
    seqLoopS (fun m w => a.map m w c) l w = seqLoopS (fun m w => b.map m w c) l w :=
  seqLoopSN_all (fun _ _ hn => F.map hn) h

theorem mapN_all {n : Node} {w : WMap} {c : Ctx} (h : mapN env a x n w c = 1) : mapBody env a n w c = mapBody env b n w c := by
  unfold mapN at h
  cases n <;> dsimp only at h <;> dsimp only [mapBody]
  case occur => exact occurLoopSN_all (fun w hn => F.map hn) _ _ _ (by omega)
  case keyValue => exact mapKeyvalueN_all F (by omega)
  case rule s as =>
    unfold afterLookup at h
    split
    · rename_i hl
      rw [hl] at h
      exact F.map (by dsimp only at h; omega)
    · rfl
  case unwrap s as =>
    unfold afterLookup at h
    split
    · rename_i p hl
      rw [hl] at h
      dsimp only at h
      unfold validateMapUnwrap
      split
      · rename_i hp; rw [hp] at h; exact mapSeqN_all F (by dsimp only at h; omega)
      · rfl
    · rfl
  case choice => exact choiceLoopSN_all (fun n w hn => F.map hn) _ _ (by dsimp only [mapChoiceN] at h; omega)
  case choiceifyInline => exact choiceLoopSN_all (fun n w hn => F.map hn) _ _ (by dsimp only [mapChoiceN] at h; omega)
  case choiceify => exact F.mchf (by omega)
  case group =>
    unfold validateMapGroup
    rw [mapSeqN_all F (by omega)]

theorem valN_all {n : Node} {v : Value} {c : Ctx} (h : valN env a x v n c = 1) : valBody env a v n c = valBody env b v n c := by
  unfold valN at h
  cases n <;> (try dsimp only at h) <;> (try dsimp only [valBody])
  case choice => exact choiceLoopN_all (fun n hn => F.val hn) _ (by omega)
  case map =>
    unfold validateMap
    split <;> try rfl
    dsimp only at h
    rw [mapSeqN_all F (by omega)]
  case array =>
    unfold validateArray
    split <;> try rfl
    dsimp only [arraySeqN] at h
    rw [seqLoopSN_all (f' := fun m w => b.arr m w c) (fun n w hn => F.arr hn) (by omega)]
  case rule s as =>
    unfold afterLookup at h
    unfold validateRule
    cases hl : c.lookupRule env s as with
    | ok p => rw [hl] at h; exact F.val (by dsimp only at h; omega)
    | error e => rfl
  case group l =>
    unfold validateStandaloneGroup
    split
    · exact F.val (by dsimp only at h; omega)
    · rfl
  case range => exact rangeN_all F (by omega)
  case ctl => exact controlN_all F (by omega)
  case ctlCbor => exact cborN_all F (by omega)
  case choiceify => exact F.chf (by omega)
  case choiceifyInline => exact choiceLoopN_all (fun n hn => choiceifyItemN_all F hn) _ (Nat.add_eq_left.mp h)
end

theorem stepN_all (env : Env) {a b : Rec} {x : Costs} (F : Free a b x) :
    (∀ v n c, (stepN env a x).val v n c = 1 → (step env a).val v n c = (step env b).val v n c) ∧
    (∀ s as v c, (stepN env a x).chf s as v c = 1 → (step env a).chf s as v c = (step env b).chf s as v c) ∧
    (∀ n w c, (stepN env a x).arr n w c = 1 → (step env a).arr n w c = (step env b).arr n w c) ∧
    (∀ n w c, (stepN env a x).map n w c = 1 → (step env a).map n w c = (step env b).map n w c) ∧
    (∀ s as w c, (stepN env a x).mchf s as w c = 1 → (step env a).mchf s as w c = (step env b).mchf s as w c) ∧
    (∀ n c, (stepN env a x).deref n c = 1 → (step env a).deref n c = (step env b).deref n c) ∧
    (∀ n c, (stepN env a x).chase n c = 1 → (step env a).chase n c = (step env b).chase n c) :=
  ⟨fun _ _ _ h => valN_all F h, fun _ _ _ _ h => chfN_all F h, fun _ _ _ h => arrN_all F h, fun _ _ _ h => mapN_all F h,
    fun _ _ _ _ h => mchfN_all F h, fun _ _ h => derefN_all F h, fun _ _ h => chaseN_all F h⟩

/-! ## Only calls that are made -/

/-- Calls that cost something panic. -/
structure Dear (a : Rec) (x : Costs) : Prop where
  val : ∀ {v n c}, 0 < x.val v n c → a.val v n c = .panic
  chf : ∀ {s as v c}, 0 < x.chf s as v c → a.chf s as v c = .panic
  arr : ∀ {n w c}, 0 < x.arr n w c → a.arr n w c = .panic
  map : ∀ {n w c}, 0 < x.map n w c → a.map n w c = .panic
  mchf : ∀ {s as w c}, 0 < x.mchf s as w c → a.mchf s as w c = .panic
  deref : ∀ {n c}, 0 < x.deref n c → a.deref n c = .panic
  chase : ∀ {n c}, 0 < x.chase n c → a.chase n c = .panic

theorem panics_dear (a : Rec) : Dear a (.panics a) := by
  constructor <;> intros <;> rename_i h <;> simp only [Costs.panics] at h <;> split at h <;>
    first | assumption | simp at h

section
variable {env : Env} {a : Rec} {x : Costs} (F : Dear a x)
include F

theorem derefN_made {n : Node} {c : Ctx} (h : 1 < derefN env x n c) : derefBody env a n c = .panic := by
  unfold derefN at h
  unfold derefBody
  split <;> try (simp at h; done)
  dsimp only [afterLookup] at h
  rename_i s as
  cases hl : c.lookupRule env s as with
  | ok p => rw [hl] at h; exact F.deref (by dsimp only at h; omega)
  | error e => rw [hl] at h; simp at h

theorem chaseN_made {n : Node} {c : Ctx} (h : 1 < chaseN env x n c) : chaseBody env a n c = .panic := by
  unfold chaseN at h
  unfold chaseBody
  split <;> try (simp at h; done)
  dsimp only [afterLookup] at h
  rename_i s as
  cases hl : c.lookupRule env s as with
  | ok p => rw [hl] at h; exact F.chase (by dsimp only at h; omega)
  | error e => rw [hl] at h; simp at h

theorem rangeN_made {s t : Node} {i : Bool} {v : Value} {c : Ctx} (h : 0 < validateRangeN a x s t c) :
    validateRange env a s t i v c = .panic := by
  simp only [validateRangeN] at h
  simp only [validateRange]
  by_cases hs : 0 < x.deref s c
  · simp only [F.deref hs, Res.bind]
  · cases hd : a.deref s c with
    | ok l => rw [hd] at h; simp only [Res.bind, F.deref (show 0 < x.deref t c by dsimp only at h; omega)]
    | _ => rw [hd] at h; dsimp only at h; omega

theorem controlN_made {op : CtlOp} {t z : Node} {v : Value} {c : Ctx} (h : 0 < validateControlN env a x op t z c) :
    validateControl env a op t z v c = .panic := by
  simp only [validateControlN] at h
  by_cases hz : 0 < x.chase z c
  · cases op <;>
      simp only [validateControl, validateControlSize, validateControlLt, validateControlLe, validateControlGt,
        validateControlGe, F.chase hz, Res.bind]
  · rw [Nat.eq_zero_of_not_pos hz, Nat.zero_add] at h
    cases hc : a.chase z c with
    | ok m =>
      rw [hc] at h
      cases op
      case size =>
        simp only [validateControl, validateControlSize, hc, Res.bind]
        cases hn : normalizeSizeRange env m with
        | ok s => simp only [hn, if_true] at h; simp only [F.chase h]
        | _ => simp [hn] at h
      all_goals
        simp only [validateControl, validateControlLt, validateControlLe, validateControlGt, validateControlGe, hc,
          Res.bind]
        by_cases hl : ∃ i, m = .literal (.int i)
        · obtain ⟨i, rfl⟩ := hl
          simp only [limitOf, if_true] at h
          simp only [limitOf, F.chase h]
        · exfalso
          revert h
          dsimp only
          split
          · rename_i hn
            unfold limitOf at hn
            split at hn
            · exact absurd ⟨_, rfl⟩ hl
            · cases hn
          · simp
    | _ => simp [hc] at h

theorem cborN_made {n : Node} {v : Value} {c : Ctx} (h : 0 < validateControlCborN env x n v c) :
    validateControlCbor env a n v c = .panic := by
  unfold validateControlCborN at h
  unfold validateControlCbor
  split <;> try (simp at h; done)
  dsimp only at h
  split
  · rename_i hd
    rw [hd] at h
    simp at h
  · rename_i z hd
    rw [hd] at h
    dsimp only at h
    cases hv : z.toValue with
    | ok w => rw [hv] at h; exact F.val h
    | error e => rw [hv] at h; simp at h

theorem choiceifyItemN_made {n : Node} {v : Value} {c : Ctx} (h : 0 < choiceifyItemN x v c n) :
    choiceifyItem a v c n = .panic := by
  unfold choiceifyItemN at h
  unfold choiceifyItem
  cases n <;> first | exact F.val h | exact F.chf h

theorem chfN_made {s : String} {as : List Node} {v : Value} {c : Ctx} (h : 1 < chfN env a x s as v c) :
    chfBody env a s as v c = .panic := by
  unfold chfN afterLookup at h
  unfold chfBody
  cases hl : c.lookupRule env s as with
  | ok p =>
    rw [hl] at h
    simp only [Res.ofExcept, Res.bind]
    dsimp only at h
    split
    · rename_i hp
      rw [hp] at h
      exact choiceLoopN_made (fun n hn => choiceifyItemN_made F hn) _ (Nat.lt_add_right_iff_pos.mp h)
    · rename_i hp
      rw [hp] at h
      exact F.chf (by dsimp only at h; omega)
    · exfalso
      revert h
      split <;> simp_all
  | error e => rw [hl] at h; simp at h

theorem arrayValueN_made {n : Node} {w : WArr} {c : Ctx} (h : 0 < arrayValueN x n w c) :
    validateArrayValue env a n w c = .panic := by
  unfold arrayValueN at h
  unfold validateArrayValue
  split
  · rename_i hw
    rw [hw] at h
    rw [F.val h]
    rfl
  · rename_i hw
    rw [hw] at h
    simp at h

theorem arrN_made {n : Node} {w : WArr} {c : Ctx} (h : 1 < arrN env a x n w c) : arrBody env a n w c = .panic := by
  have hs : ∀ {l : List Node} {w : WArr} {c : Ctx}, 0 < arraySeqN a x l w c →
      seqLoopS (fun m w => a.arr m w c) l w = .panic :=
    fun h => seqLoopSN_made (fun n w hn => F.arr hn) h
  have hv : ∀ {n : Node}, 1 < 1 + arrayValueN x n w c → validateArrayValue env a n w c = .panic :=
    fun h => arrayValueN_made F (by omega)
  unfold arrN at h
  cases n <;> dsimp only at h <;> dsimp only [arrBody] <;> try exact hv h
  case occur => exact occurLoopSN_made (fun w hn => F.arr hn) _ _ _ (by omega)
  case rule s as =>
    unfold afterLookup at h
    split
    · rename_i hl
      rw [hl] at h
      exact F.arr (by dsimp only at h; omega)
    · rename_i hl; rw [hl] at h; simp at h
  case unwrap s as =>
    unfold afterLookup at h
    split
    · rename_i p hl
      rw [hl] at h
      dsimp only at h
      unfold validateArrayUnwrap
      split
      · rename_i hp; rw [hp] at h; exact hs (by dsimp only at h; omega)
      · exfalso; revert h; split <;> simp_all
    · rename_i hl; rw [hl] at h; simp at h
  case choice => exact choiceLoopSN_made (fun n w hn => F.arr hn) _ _ (by omega)
  case group =>
    unfold validateArrayGroup
    rw [hs (by omega)]
  all_goals simp at h

theorem mapKeyN_made {n : Node} {w : WMap} {c : Ctx} (h : 0 < mapKeyN a x n w c) :
    validateMapKey env a n w c = .panic := by
  unfold mapKeyN at h
  unfold validateMapKey
  cases n <;> first | exact mapSearchLoopN_made (fun v hv => F.val hv) _ h | simp at h

theorem mapKeyvalueN_made {k n : Node} {i : Bool} {w : WMap} {c : Ctx} (h : 0 < mapKeyvalueN env a x k n w c) :
    validateMapKeyvalue env a k n i w c = .panic := by
  simp only [mapKeyvalueN] at h
  unfold validateMapKeyvalue
  by_cases hk0 : 0 < mapKeyN a x k w c
  · rw [mapKeyN_made F hk0]
  · rw [Nat.eq_zero_of_not_pos hk0, Nat.zero_add] at h
    cases hk : validateMapKey env a k w c with
    | ok p => rw [hk] at h; dsimp only at h ⊢; rw [F.val h]
    | _ => simp [hk] at h

theorem mapChoiceifyItemN_made {n : Node} {w : WMap} {c : Ctx} (h : 0 < mapChoiceifyItemN x c n w) :
    mapChoiceifyItem a c n w = .panic := by
  unfold mapChoiceifyItemN at h
  unfold mapChoiceifyItem
  cases n <;> first | exact F.map h | exact F.mchf h

theorem mchfN_made {s : String} {as : List Node} {w : WMap} {c : Ctx} (h : 1 < mchfN env a x s as w c) :
    mchfBody env a s as w c = .panic := by
  unfold mchfN afterLookup at h
  unfold mchfBody
  cases hl : c.lookupRule env s as with
  | ok p =>
    rw [hl] at h
    dsimp only at h ⊢
    split
    · rename_i hp
      rw [hp] at h
      exact choiceLoopSN_made (fun n w hn => mapChoiceifyItemN_made F hn) _ _ (Nat.lt_add_right_iff_pos.mp h)
    · rename_i hp
      rw [hp] at h
      exact F.mchf (by dsimp only at h; omega)
    · exfalso
      revert h
      split <;> simp_all
  | error e => rw [hl] at h; simp at h

theorem mapSeqN_made {l : List Node} {w : WMap} {c : Ctx} (h : 0 < mapSeqN a x l w c) :
    seqLoopS (fun m w => a.map m w c) l w = .panic :=
  seqLoopSN_made (fun _ _ hn => F.map hn) h

theorem mapN_made {n : Node} {w : WMap} {c : Ctx} (h : 1 < mapN env a x n w c) : mapBody env a n w c = .panic := by
  unfold mapN at h
  cases n <;> dsimp only at h <;> dsimp only [mapBody]
  case occur => exact occurLoopSN_made (fun w hn => F.map hn) _ _ _ (by omega)
  case keyValue => exact mapKeyvalueN_made F (by omega)
  case rule s as =>
    unfold afterLookup at h
    split
    · rename_i hl
      rw [hl] at h
      exact F.map (by dsimp only at h; omega)
    · rename_i hl; rw [hl] at h; simp at h
  case unwrap s as =>
    unfold afterLookup at h
    split
    · rename_i p hl
      rw [hl] at h
      dsimp only at h
      unfold validateMapUnwrap
      split
      · rename_i hp; rw [hp] at h; exact mapSeqN_made F (by dsimp only at h; omega)
      · exfalso; revert h; split <;> simp_all
    · rename_i hl; rw [hl] at h; simp at h
  case choice => exact choiceLoopSN_made (fun n w hn => F.map hn) _ _ (Nat.lt_add_right_iff_pos.mp h)
  case choiceifyInline => exact choiceLoopSN_made (fun n w hn => F.map hn) _ _ (Nat.lt_add_right_iff_pos.mp h)
  case choiceify => exact F.mchf (by omega)
  case group =>
    unfold validateMapGroup
    rw [mapSeqN_made F (by omega)]
  all_goals simp at h

theorem valN_made {n : Node} {v : Value} {c : Ctx} (h : 1 < valN env a x v n c) : valBody env a v n c = .panic := by
  unfold valN at h
  cases n <;> (try dsimp only at h) <;> (try dsimp only [valBody])
  case choice => exact choiceLoopN_made (fun n hn => F.val hn) _ (by omega)
  case map =>
    unfold validateMap
    split
    · dsimp only at h
      rw [mapSeqN_made F (by omega)]
    · exfalso; revert h; split <;> simp_all
  case array =>
    unfold validateArray
    split
    · dsimp only [arraySeqN] at h
      rw [seqLoopSN_made (fun n w hn => F.arr hn) (by omega)]
    · exfalso; revert h; split <;> simp_all
  case rule s as =>
    unfold afterLookup at h
    unfold validateRule
    cases hl : c.lookupRule env s as with
    | ok p => rw [hl] at h; exact F.val (by dsimp only at h; omega)
    | error e => rw [hl] at h; simp at h
  case group l =>
    unfold validateStandaloneGroup
    split
    · exact F.val (by dsimp only at h; omega)
    · exfalso; revert h; split <;> simp_all
  case range => exact rangeN_made F (by omega)
  case ctl => exact controlN_made F (by omega)
  case ctlCbor => exact cborN_made F (by omega)
  case choiceify => exact F.chf (by omega)
  case choiceifyInline => exact choiceLoopN_made (fun n hn => choiceifyItemN_made F hn) _ (Nat.lt_add_right_iff_pos.mp h)
  all_goals simp at h
end

theorem stepN_made (env : Env) {a : Rec} {x : Costs} (F : Dear a x) :
    (∀ v n c, 1 < (stepN env a x).val v n c → (step env a).val v n c = .panic) ∧
    (∀ s as v c, 1 < (stepN env a x).chf s as v c → (step env a).chf s as v c = .panic) ∧
    (∀ n w c, 1 < (stepN env a x).arr n w c → (step env a).arr n w c = .panic) ∧
    (∀ n w c, 1 < (stepN env a x).map n w c → (step env a).map n w c = .panic) ∧
    (∀ s as w c, 1 < (stepN env a x).mchf s as w c → (step env a).mchf s as w c = .panic) ∧
    (∀ n c, 1 < (stepN env a x).deref n c → (step env a).deref n c = .panic) ∧
    (∀ n c, 1 < (stepN env a x).chase n c → (step env a).chase n c = .panic) :=
  ⟨fun _ _ _ h => valN_made F h, fun _ _ _ _ h => chfN_made F h, fun _ _ _ h => arrN_made F h, fun _ _ _ h => mapN_made F h,
    fun _ _ _ _ h => mchfN_made F h, fun _ _ h => derefN_made F h, fun _ _ h => chaseN_made F h⟩

end Cddl
