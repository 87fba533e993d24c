import Verif.Model.Cost
import Verif.Proofs.Term

/-! # The number of calls does not depend on the budget

If validation returns, the calls it has made have returned as well, so with a larger budget the same calls are made. -/

namespace Cddl

/-- The counts `x` and `y` agree wherever `a` returns. -/
structure Costs.On (a : Rec) (x y : Costs) : Prop where
  val : ∀ v n c, a.val v n c ≠ .fuel → x.val v n c = y.val v n c
  chf : ∀ s l v c, a.chf s l v c ≠ .fuel → x.chf s l v c = y.chf s l v c
  arr : ∀ n w c, a.arr n w c ≠ .fuel → x.arr n w c = y.arr n w c
  map : ∀ n w c, a.map n w c ≠ .fuel → x.map n w c = y.map n w c
  mchf : ∀ s l w c, a.mchf s l w c ≠ .fuel → x.mchf s l w c = y.mchf s l w c
  deref : ∀ n c, a.deref n c ≠ .fuel → x.deref n c = y.deref n c
  chase : ∀ n c, a.chase n c ≠ .fuel → x.chase n c = y.chase n c

theorem Res.Le.eq_of {α : Type} {a b : Res α} (h : Res.Le a b) (h' : a ≠ .fuel) : b = a := by
  rcases h with h | h
  · exact absurd h h'
  · exact h.symm

theorem SRes.Le.eq_of {α : Type} {a b : SRes α} (h : SRes.Le a b) (h' : a ≠ .fuel) : b = a := by
  rcases h with h | h
  · exact absurd h h'
  · exact h.symm

theorem choiceLoopN_on {f f' : Node → Res Unit} {g g' : Node → Nat} {msg : String} (h : ∀ n, Res.Le (f n) (f' n))
    (hg : ∀ n, f n ≠ .fuel → g n = g' n) :
    ∀ l, choiceLoop f msg l ≠ .fuel → choiceLoopN f g l = choiceLoopN f' g' l
  | [], _ => rfl
  | n :: ns, hl => by
    have hn : f n ≠ .fuel := fun h0 => hl (by simp [choiceLoop, h0])
    simp only [choiceLoopN, hg n hn, (h n).eq_of hn]
    congr 1
    cases hr : f n with
    | err e =>
      dsimp only
      split
      · rfl
      · rename_i hf
        exact choiceLoopN_on (msg := msg) h hg ns fun h0 => hl (by simp [choiceLoop, hr, hf, h0])
    | _ => rfl

theorem choiceLoopSN_on {σ : Type} {f f' : Node → σ → SRes σ} {g g' : Node → σ → Nat} {stop : Err → Bool} {msg : String}
    (h : ∀ n w, SRes.Le (f n w) (f' n w)) (hg : ∀ n w, f n w ≠ .fuel → g n w = g' n w) :
    ∀ l w, choiceLoopS f stop msg l w ≠ .fuel → choiceLoopSN f g stop l w = choiceLoopSN f' g' stop l w
  | [], _, _ => rfl
  | n :: ns, w, hl => by
    have hn : f n w ≠ .fuel := fun h0 => hl (by simp [choiceLoopS, h0])
    simp only [choiceLoopSN, hg n w hn, (h n w).eq_of hn]
    congr 1
    cases hr : f n w with
    | err e w' =>
      dsimp only
      split
      · rfl
      · rename_i hf
        exact choiceLoopSN_on (msg := msg) h hg ns w' fun h0 => hl (by simp [choiceLoopS, hr, hf, h0])
    | _ => rfl

theorem seqLoopSN_on {σ : Type} {f f' : Node → σ → SRes σ} {g g' : Node → σ → Nat}
    (h : ∀ n w, SRes.Le (f n w) (f' n w)) (hg : ∀ n w, f n w ≠ .fuel → g n w = g' n w) :
    ∀ l w, seqLoopS f l w ≠ .fuel → seqLoopSN f g l w = seqLoopSN f' g' l w
  | [], _, _ => rfl
  | n :: ns, w, hl => by
    have hn : f n w ≠ .fuel := fun h0 => hl (by simp [seqLoopS, h0])
    simp only [seqLoopSN, hg n w hn, (h n w).eq_of hn]
    congr 1
    cases hr : f n w with
    | ok w' => exact seqLoopSN_on h hg ns w' fun h0 => hl (by simp [seqLoopS, hr, h0])
    | _ => rfl

theorem occurLoopSN_on {σ : Type} {f f' : σ → SRes σ} {g g' : σ → Nat} {lo up : Nat} {msg : String}
    (h : ∀ w, SRes.Le (f w) (f' w)) (hg : ∀ w, f w ≠ .fuel → g w = g' w) :
    ∀ k count w, occurLoopS f lo up msg k count w ≠ .fuel → occurLoopSN f g up k count w = occurLoopSN f' g' up k count w
  | 0, _, _, _ => rfl
  | k + 1, count, w, hl => by
    have hn : f w ≠ .fuel := fun h0 => hl (by simp [occurLoopS, h0])
    simp only [occurLoopSN, hg w hn, (h w).eq_of hn]
    congr 1
    cases hr : f w with
    | ok w' =>
      dsimp only
      split
      · rfl
      · rename_i hf
        exact occurLoopSN_on (lo := lo) (msg := msg) h hg k _ w' fun h0 => hl (by simp [occurLoopS, hr, hf, h0])
    | _ => rfl

theorem mapSearchLoopN_on {f f' : Value → Res Unit} {g g' : Value → Nat} {msg : String} (h : ∀ n, Res.Le (f n) (f' n))
    (hg : ∀ n, f n ≠ .fuel → g n = g' n) :
    ∀ l, mapSearchLoop f msg l ≠ .fuel → mapSearchLoopN f g l = mapSearchLoopN f' g' l
  | [], _ => rfl
  | (n, v) :: ns, hl => by
    have hn : f n ≠ .fuel := fun h0 => hl (by simp [mapSearchLoop, h0])
    simp only [mapSearchLoopN, hg n hn, (h n).eq_of hn]
    congr 1
    cases hr : f n with
    | err e => exact mapSearchLoopN_on (msg := msg) h hg ns fun h0 => hl (by simp [mapSearchLoop, hr, h0])
    | _ => rfl

theorem bind_inl {α β : Type} {a : Res α} {f : α → Res β} (h : a.bind f ≠ .fuel) : a ≠ .fuel := by
  rintro rfl
  exact h rfl

section On
variable {env : Env} {a b : Rec} {x y : Costs} (h : Rec.Le a b) (hx : Costs.On a x y)
include h hx

theorem choiceifyMembersN_on (l : List Node) (v : Value) (c : Ctx) (hr : validateChoiceifyMembers a l v c ≠ .fuel) :
    choiceifyMembersN a x l v c = choiceifyMembersN b y l v c := by
  refine choiceLoopN_on (fun n => ?_) (fun n hn => ?_) l hr
  · cases n <;> simp only [choiceifyItem] <;> first | exact h.val _ _ _ | exact h.chf _ _ _ _
  · cases n <;> simp only [choiceifyItem] at hn <;> first | exact hx.val _ _ _ hn | exact hx.chf _ _ _ _ hn

theorem arraySeqN_on (ms : List Node) (w : WArr) (c : Ctx) (hr : seqLoopS (fun m w => a.arr m w c) ms w ≠ .fuel) :
    arraySeqN a x ms w c = arraySeqN b y ms w c :=
  seqLoopSN_on (fun n w => h.arr n w c) (fun n w => hx.arr n w c) ms w hr

theorem mapSeqN_on (ms : List Node) (w : WMap) (c : Ctx) (hr : seqLoopS (fun m w => a.map m w c) ms w ≠ .fuel) :
    mapSeqN a x ms w c = mapSeqN b y ms w c :=
  seqLoopSN_on (fun n w => h.map n w c) (fun n w => hx.map n w c) ms w hr

theorem mapChoiceN_on (ms : List Node) (w : WMap) (c : Ctx) (hr : validateMapChoice a ms w c ≠ .fuel) :
    mapChoiceN a x ms w c = mapChoiceN b y ms w c :=
  choiceLoopSN_on (fun n w => h.map n w c) (fun n w => hx.map n w c) ms w hr

omit h in
theorem arrayValueN_on (n : Node) (w : WArr) (c : Ctx) (hr : validateArrayValue env a n w c ≠ .fuel) :
    arrayValueN x n w c = arrayValueN y n w c := by
  unfold arrayValueN
  unfold validateArrayValue at hr
  split
  · rename_i v t hw
    rw [hw] at hr
    exact hx.val _ _ _ fun h0 => hr (by simp [h0])
  · rfl

theorem valN_on (v : Value) (n : Node) (c : Ctx) (hr : valBody env a v n c ≠ .fuel) :
    valN env a x v n c = valN env b y v n c := by
  unfold valN
  congr 1
  cases n <;> simp only [valBody] at hr <;> try rfl
  case rule s as =>
    unfold validateRule at hr
    dsimp only [afterLookup]
    split
    · rename_i p hp
      rw [hp] at hr
      exact hx.val _ _ _ hr
    · rfl
  case choice l => exact choiceLoopN_on (fun n => h.val _ _ _) (fun n => hx.val _ _ _) l hr
  case map ms =>
    cases v <;> try rfl
    exact mapSeqN_on h hx _ _ _ fun h0 => hr (by simp [validateMap, h0])
  case array ms =>
    cases v <;> try rfl
    exact arraySeqN_on h hx _ _ _ fun h0 => hr (by simp [validateArray, h0])
  case group ms =>
    unfold validateStandaloneGroup at hr
    split at hr
    · exact hx.val _ _ _ hr
    · rename_i hne
      cases ms with
      | nil => rfl
      | cons m l => cases l with
        | nil => exact absurd rfl (hne m)
        | cons => rfl
  case range s e i =>
    unfold validateRange at hr
    have h1 := bind_inl hr
    simp only [validateRangeN, hx.deref _ _ h1, (h.deref _ _).eq_of h1]
    congr 1
    cases hs : a.deref s c with
    | ok l =>
      rw [hs] at hr
      exact hx.deref _ _ (bind_inl hr)
    | _ => rfl
  case ctl op t arg =>
    have h1 : a.chase arg c ≠ .fuel := by
      intro h0
      cases op <;> exact hr (by simp [validateControl, validateControlSize, validateControlLt, validateControlLe,
        validateControlGt, validateControlGe, h0, Res.bind])
    simp only [validateControlN, hx.chase _ _ h1, (h.chase _ _).eq_of h1]
    congr 1
    cases hs : a.chase arg c with
    | ok l =>
      cases op with
      | size =>
        simp only [validateControl, validateControlSize, hs, Res.bind] at hr
        dsimp only
        cases hz : normalizeSizeRange env l with
        | ok z =>
          rw [hz] at hr
          dsimp only at hr ⊢
          rw [hx.chase _ _ (bind_inl hr)]
        | _ => rfl
      | lt | le | gt | ge =>
        simp only [validateControl, validateControlLt, validateControlLe, validateControlGt, validateControlGe, hs,
          Res.bind] at hr
        dsimp only
        unfold limitOf at hr ⊢
        split
        · rename_i h0
          split at h0
          · rw [hx.chase _ _ (bind_inl hr)]
          · cases h0
        · rfl
    | _ => rfl
  case ctlCbor n =>
    show validateControlCborN env x n v c = validateControlCborN env y n v c
    cases v <;> try rfl
    rename_i bs
    simp only [validateControlCbor, validateControlCborN] at hr ⊢
    cases hd : env.cborDecode bs with
    | error => rfl
    | ok cb =>
      rw [hd] at hr
      dsimp only at hr ⊢
      cases hz : cb.toValue with
      | error => rfl
      | ok z =>
        rw [hz] at hr
        exact hx.val _ _ _ hr
  case choiceify s as => exact hx.chf _ _ _ _ hr
  case choiceifyInline ms => exact choiceifyMembersN_on h hx _ _ _ hr

theorem chfN_on (s : String) (l : List Node) (v : Value) (c : Ctx) (hr : chfBody env a s l v c ≠ .fuel) :
    chfN env a x s l v c = chfN env b y s l v c := by
  unfold chfN
  congr 1
  unfold chfBody at hr
  dsimp only [afterLookup]
  split
  · rename_i p hp
    rw [hp] at hr
    obtain ⟨n, c'⟩ := p
    simp only [Res.ofExcept, Res.bind] at hr
    cases n <;> dsimp only at hr ⊢
    case group ms => exact choiceifyMembersN_on h hx _ _ _ hr
    case rule s as => exact hx.chf _ _ _ _ hr
  · rfl

theorem arrN_on (n : Node) (w : WArr) (c : Ctx) (hr : arrBody env a n w c ≠ .fuel) :
    arrN env a x n w c = arrN env b y n w c := by
  unfold arrN
  congr 1
  cases n <;> simp only [arrBody] at hr <;> try exact arrayValueN_on (env := env) hx _ _ _ hr
  case occur => exact occurLoopSN_on (fun w => h.arr _ w _) (fun w => hx.arr _ w _) _ _ _ hr
  case rule =>
    dsimp only [afterLookup]
    split
    · rename_i p hp
      rw [hp] at hr
      exact hx.arr _ _ _ hr
    · rfl
  case unwrap =>
    dsimp only [afterLookup]
    split
    · rename_i p hp
      rw [hp] at hr
      obtain ⟨n, c'⟩ := p
      cases n <;> dsimp only [validateArrayUnwrap] at hr ⊢
      exact arraySeqN_on h hx _ _ _ hr
    · rfl
  case choice => exact choiceLoopSN_on (fun n w => h.arr n w _) (fun n w => hx.arr n w _) _ _ hr
  case group ms => exact arraySeqN_on h hx _ _ _ fun h0 => hr (by simp [validateArrayGroup, h0])

theorem mapKeyvalueN_on (k v : Node) (cut : Bool) (w : WMap) (c : Ctx)
    (hr : validateMapKeyvalue env a k v cut w c ≠ .fuel) : mapKeyvalueN env a x k v w c = mapKeyvalueN env b y k v w c := by
  have hk : Res.Le (validateMapKey env a k w c) (validateMapKey env b k w c) := by
    unfold validateMapKey
    split
    · exact .rfl
    · exact mapSearchLoop_mono (fun n => h.val _ _ _) _
  unfold validateMapKeyvalue at hr
  have hn : validateMapKey env a k w c ≠ .fuel := fun h0 => hr (by simp [h0])
  simp only [mapKeyvalueN, hk.eq_of hn]
  have h1 : mapKeyN a x k w c = mapKeyN b y k w c := by
    unfold mapKeyN
    cases k <;> simp only [validateMapKey] at hn <;>
      first | rfl | exact mapSearchLoopN_on (fun n => h.val _ _ _) (fun n => hx.val _ _ _) _ hn
  rw [h1]
  congr 1
  cases hs : validateMapKey env a k w c with
  | ok p =>
    obtain ⟨k', v'⟩ := p
    rw [hs] at hr
    exact hx.val _ _ _ fun h0 => hr (by simp [h0])
  | _ => rfl

theorem mapN_on (n : Node) (w : WMap) (c : Ctx) (hr : mapBody env a n w c ≠ .fuel) :
    mapN env a x n w c = mapN env b y n w c := by
  unfold mapN
  congr 1
  cases n <;> simp only [mapBody] at hr <;> try rfl
  case occur => exact occurLoopSN_on (fun w => h.map _ w _) (fun w => hx.map _ w _) _ _ _ hr
  case keyValue => exact mapKeyvalueN_on h hx _ _ _ _ _ hr
  case rule =>
    dsimp only [afterLookup]
    split
    · rename_i p hp
      rw [hp] at hr
      exact hx.map _ _ _ hr
    · rfl
  case unwrap =>
    dsimp only [afterLookup]
    split
    · rename_i p hp
      rw [hp] at hr
      obtain ⟨n, c'⟩ := p
      cases n <;> dsimp only [validateMapUnwrap] at hr ⊢
      exact mapSeqN_on h hx _ _ _ hr
    · rfl
  case choice => exact mapChoiceN_on h hx _ _ _ hr
  case choiceifyInline => exact mapChoiceN_on h hx _ _ _ hr
  case choiceify => exact hx.mchf _ _ _ _ hr
  case group ms => exact mapSeqN_on h hx _ _ _ fun h0 => hr (by simp [validateMapGroup, h0])

theorem mchfN_on (s : String) (l : List Node) (w : WMap) (c : Ctx) (hr : mchfBody env a s l w c ≠ .fuel) :
    mchfN env a x s l w c = mchfN env b y s l w c := by
  unfold mchfN
  congr 1
  unfold mchfBody at hr
  dsimp only [afterLookup]
  split
  · rename_i p hp
    rw [hp] at hr
    obtain ⟨n, c'⟩ := p
    cases n <;> dsimp only at hr ⊢
    case group ms =>
      refine choiceLoopSN_on (fun n w => ?_) (fun n w hn => ?_) ms w hr
      · cases n <;> simp only [mapChoiceifyItem] <;> first | exact h.map _ _ _ | exact h.mchf _ _ _ _
      · cases n <;> simp only [mapChoiceifyItem] at hn <;> first | exact hx.map _ _ _ hn | exact hx.mchf _ _ _ _ hn
    case rule s as => exact hx.mchf _ _ _ _ hr
  · rfl

omit h in
theorem derefN_on (n : Node) (c : Ctx) (hr : derefBody env a n c ≠ .fuel) : derefN env x n c = derefN env y n c := by
  unfold derefN
  congr 1
  cases n <;> simp only [derefBody] at hr <;> try rfl
  dsimp only [afterLookup]
  split
  · rename_i p hp
    rw [hp] at hr
    exact hx.deref _ _ hr
  · rfl

omit h in
theorem chaseN_on (n : Node) (c : Ctx) (hr : chaseBody env a n c ≠ .fuel) : chaseN env x n c = chaseN env y n c := by
  unfold chaseN
  congr 1
  cases n <;> simp only [chaseBody] at hr <;> try rfl
  dsimp only [afterLookup]
  split
  · rename_i p hp
    rw [hp] at hr
    exact hx.chase _ _ hr
  · rfl

theorem stepN_on : Costs.On (step env a) (stepN env a x) (stepN env b y) where
  val := valN_on h hx
  chf := chfN_on h hx
  arr := arrN_on h hx
  map := mapN_on h hx
  mchf := mchfN_on h hx
  deref := derefN_on hx
  chase := chaseN_on hx

end On

/-- With a larger budget the same calls are made. -/
theorem costs_on (env : Env) {k m : Nat} (h : k ≤ m) : Costs.On (fns env k) (costs env k) (costs env m) := by
  induction k generalizing m with
  | zero => exact ⟨fun _ _ _ h => absurd rfl h, fun _ _ _ _ h => absurd rfl h, fun _ _ _ h => absurd rfl h,
      fun _ _ _ h => absurd rfl h, fun _ _ _ _ h => absurd rfl h, fun _ _ h => absurd rfl h, fun _ _ h => absurd rfl h⟩
  | succ k ih =>
    cases m with
    | zero => cases h
    | succ m => exact stepN_on (fns_mono env (Nat.le_of_succ_le_succ h)) (ih (Nat.le_of_succ_le_succ h))

/-- There is one number of calls. -/
theorem callsMade_unique {env : Env} {v : Value} {n : Node} {c : Ctx} {m m' : Nat} (h : CallsMade env v n c m)
    (h' : CallsMade env v n c m') : m = m' := by
  obtain ⟨k, hk, rfl⟩ := h
  obtain ⟨k', hk', rfl⟩ := h'
  rw [(costs_on env (Nat.le_max_left k k')).val _ _ _ hk, (costs_on env (Nat.le_max_right k k')).val _ _ _ hk']

/-- There is a number of calls. -/
theorem callsMade_exists (env : Env) (v : Value) (n : Node) {c : Ctx} (hc : CtxOK c) : ∃ m, CallsMade env v n c m := by
  obtain ⟨k, hk⟩ := (lim_ev env).val v n c
  refine ⟨_, k, ?_, rfl⟩
  have h := hk k (Nat.le_refl _)
  dsimp only at h
  rw [h]
  exact lim_val_returns env v n hc

end Cddl
