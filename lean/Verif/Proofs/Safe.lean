import Verif.Proofs.Term
import Verif.Proofs.VMap

/-! # No panics, balanced snapshots, and which errors can come out -/

namespace Cddl

/-- Not a panic, and errors satisfy `E`. -/
def Res.Safe {α : Type} (E : Err → Prop) (P : α → Prop) : Res α → Prop
  | .ok a => P a
  | .err e => E e
  | .panic => False
  | .fuel => True

/-- Not a panic, errors satisfy `E`, and the working copy satisfies `I` afterwards. -/
def SRes.Safe {σ : Type} (E : Err → Prop) (I : σ → Prop) : SRes σ → Prop
  | .ok w => I w
  | .err e w => E e ∧ I w
  | .panic => False
  | .fuel => True

section Loops

theorem choiceLoop_safe {E : Err → Prop} {f : Node → Res Unit} {msg : String}
    (hm : E (.mismatch msg)) :
    ∀ l : List Node, (∀ n ∈ l, (f n).Safe E fun _ => True) →
      (choiceLoop f msg l).Safe E fun _ => True
  | [], _ => hm
  | n :: ns, h => by
    have h1 := h n (by simp)
    have h2 := choiceLoop_safe hm ns fun m hm => h m (by simp [hm])
    simp only [choiceLoop]
    cases hf : f n with
    | err e =>
      rw [hf] at h1
      dsimp only; split
      · exact h1
      · exact h2
    | ok => trivial
    | fuel => trivial
    | panic => rw [hf] at h1; exact h1

variable {σ : Type} {E : Err → Prop} {I : σ → Prop}

theorem choiceLoopS_safe {f : Node → σ → SRes σ} {stop : Err → Bool} {msg : String}
    (hm : E (.mismatch msg)) :
    ∀ (l : List Node) (w : σ), I w → (∀ n ∈ l, ∀ w, I w → (f n w).Safe E I) →
      (choiceLoopS f stop msg l w).Safe E I
  | [], w, hw, _ => ⟨hm, hw⟩
  | n :: ns, w, hw, h => by
    have h1 := h n (by simp) w hw
    have h2 := fun w hw => choiceLoopS_safe (stop := stop) hm ns w hw fun m hm => h m (by simp [hm])
    simp only [choiceLoopS]
    cases hf : f n w with
    | err e w' =>
      rw [hf] at h1
      dsimp only; split
      · exact h1
      · exact h2 _ h1.2
    | ok => rw [hf] at h1; exact h1
    | fuel => trivial
    | panic => rw [hf] at h1; exact h1

theorem seqLoopS_safe {f : Node → σ → SRes σ} :
    ∀ (l : List Node) (w : σ), I w → (∀ n ∈ l, ∀ w, I w → (f n w).Safe E I) →
      (seqLoopS f l w).Safe E I
  | [], w, hw, _ => hw
  | n :: ns, w, hw, h => by
    have h1 := h n (by simp) w hw
    have h2 := fun w hw => seqLoopS_safe ns w hw fun m hm => h m (by simp [hm])
    simp only [seqLoopS]
    cases hf : f n w with
    | ok w' => rw [hf] at h1; exact h2 _ h1
    | err e w' => rw [hf] at h1; exact h1
    | fuel => trivial
    | panic => rw [hf] at h1; exact h1

theorem occurLoopS_safe {f : σ → SRes σ} {lo up : Nat} {msg : String} (hm : E (.mismatch msg))
    (h : ∀ w, I w → (f w).Safe E I) :
    ∀ (k c : Nat) (w : σ), I w → (occurLoopS f lo up msg k c w).Safe E I
  | 0, _, _, _ => trivial
  | k + 1, c, w, hw => by
    have h1 := h w hw
    simp only [occurLoopS]
    cases hf : f w with
    | ok w' =>
      rw [hf] at h1
      dsimp only
      split
      · split
        · exact ⟨hm, h1⟩
        · exact h1
      · exact occurLoopS_safe hm h k (c + 1) w' h1
    | err e w' =>
      rw [hf] at h1
      dsimp only; split
      · split
        · exact ⟨hm, h1.2⟩
        · exact h1.2
      · exact h1
    | fuel => trivial
    | panic => rw [hf] at h1; exact h1

theorem mapSearchLoop_safe {E : Err → Prop} {f : Value → Res Unit} {msg : String}
    (hm : E (.mismatch msg)) :
    ∀ l : VMap, (∀ p ∈ l, f p.1 ≠ .panic) →
      (mapSearchLoop f msg l).Safe E fun p => p ∈ l
  | [], _ => hm
  | (k, v) :: t, h => by
    have h1 := h (k, v) (by simp)
    have h2 := mapSearchLoop_safe hm t fun p hp => h p (by simp [hp])
    simp only [mapSearchLoop]
    cases hf : f k with
    | ok => exact List.mem_cons_self
    | err e =>
      dsimp only
      revert h2
      cases mapSearchLoop f msg t <;> simp [Res.Safe]
      intro h; exact Or.inr h
    | fuel => trivial
    | panic => exact h1 hf

end Loops

theorem bind_safe {α β : Type} {E : Err → Prop} {P : α → Prop} {Q : β → Prop} {a : Res α}
    {f : α → Res β} (ha : a.Safe E P) (hf : ∀ x, P x → (f x).Safe E Q) : (a.bind f).Safe E Q := by
  cases a with
  | ok x => exact hf x ha
  | err e => exact ha
  | panic => exact ha
  | fuel => trivial

/-- Working array whose elements are well formed, with `k` snapshots. -/
def WArr.Inv (k : Nat) (w : WArr) : Prop :=
  (∀ v ∈ w.array, v.WF) ∧ (∀ s ∈ w.snaps, ∀ v ∈ s, v.WF) ∧ w.snaps.length = k

/-- Working map that is a well-formed map, with `k` snapshots. -/
def WMap.Inv (k : Nat) (w : WMap) : Prop :=
  VMap.PW w.map ∧ (∀ p ∈ w.map, p.1.WF ∧ p.2.WF) ∧
  (∀ s ∈ w.snaps, ∀ p ∈ s, p.1.WF ∧ p.2.WF) ∧ w.snaps.length = k

/-- Errors other than `mapCut` are allowed, and whatever the rule lookup returns. -/
structure OkErr (env : Env) (E : Err → Prop) : Prop where
  std : ∀ e, (∀ m, e ≠ .mapCut m) → E e
  lookup : ∀ s e, env.lookup s = .error e → E e

structure GoodRec (env : Env) (E : Err → Prop) (r : Rec) : Prop where
  val : ∀ v n c, v.WF → (r.val v n c).Safe E fun _ => True
  chf : ∀ s l v c, v.WF → (r.chf s l v c).Safe E fun _ => True
  arr : ∀ n w c k, w.Inv k → (r.arr n w c).Safe E (WArr.Inv k)
  map : ∀ n w c k, w.Inv k → (r.map n w c).Safe (fun _ => True) (WMap.Inv k)
  mchf : ∀ s l w c k, w.Inv k → (r.mchf s l w c).Safe (fun _ => True) (WMap.Inv k)
  deref : ∀ n c, (r.deref n c).Safe E fun _ => True
  chase : ∀ n c, (r.chase n c).Safe E fun _ => True

theorem GoodRec.bot (env : Env) (E : Err → Prop) : GoodRec env E Rec.bot := by
  constructor <;> intros <;> trivial

section Step
variable {env : Env} {E : Err → Prop} (hE : OkErr env E)
include hE

theorem OkErr.mm (m : String) : E (.mismatch m) := hE.std _ (by simp)
theorem OkErr.st (m : String) : E (.structural m) := hE.std _ (by simp)

theorem lookupRule_err {c : Ctx} {s : String} {l : List Node} {e : Err}
    (h : c.lookupRule env s l = .error e) : E e := by
  have key : ((env.lookup s).bind fun rd => (c.derive rd l).bind fun c => .ok (rd.node, c))
      = (Except.error e : Except Err (Node × Ctx)) → E e := by
    intro hv
    cases hl : env.lookup s with
    | error e' => rw [hl] at hv; cases hv; exact hE.lookup _ _ hl
    | ok rd =>
      simp only [hl, Except.bind] at hv
      unfold Ctx.derive Ctx.incDepth at hv
      split at hv
      · rename_i hd
        cases hv
        split at hd
        · cases hd; exact hE.std _ (by simp)
        · simp only [Except.bind] at hd
          split at hd
          · rename_i hdd
            cases hd
            split at hdd
            · cases hdd; exact hE.st _
            · cases hdd
          · cases hd
      · cases hv
  unfold Ctx.lookupRule at h
  cases c with
  | root d => exact key h
  | frame g past d =>
    dsimp only at h
    split at h
    · cases h
    · exact key h

theorem lookupRule_safe (c : Ctx) (s : String) (l : List Node) :
    (Res.ofExcept (c.lookupRule env s l)).Safe E fun _ => True := by
  cases h : c.lookupRule env s l with
  | ok a => trivial
  | error e => exact lookupRule_err hE h

theorem validatePreludeType_safe (p : PreludeType) (v : Value) :
    (validatePreludeType p v).Safe E fun _ => True := by
  cases p <;> cases v <;> simp only [validatePreludeType] <;> (try split) <;>
    first | trivial | exact hE.mm _

theorem rangeMatch_safe (s : String) (a b : Literal) (v : Value) (i : Bool) :
    (rangeMatch s a b v i).Safe E fun _ => True := by
  unfold rangeMatch
  split <;> split <;> first | trivial | exact hE.mm _ | exact hE.st _

theorem toU64_safe (i : Int) : (toU64 i).Safe E fun n => n < 2 ^ 64 := by
  unfold toU64; split
  · show i.toNat < 2 ^ 64
    omega
  · exact hE.st _

theorem normalizeSizeRange_safe (n : Node) : (normalizeSizeRange env n).Safe E fun _ => True := by
  unfold normalizeSizeRange
  split
  · exact bind_safe (toU64_safe hE _) fun _ _ => trivial
  · refine bind_safe (P := fun _ => True) ?_ fun _ _ => bind_safe (P := fun _ => True) ?_ fun _ _ =>
      bind_safe (toU64_safe hE _) fun _ _ => bind_safe (toU64_safe hE _) fun _ _ => trivial
    · split
      · trivial
      · exact hE.st _
    · split
      · trivial
      · exact hE.st _
  · exact hE.st _

theorem sizeEndpoints_safe (s : String) (z : Node × Node × Bool) :
    (sizeEndpoints s z).Safe E fun _ => True := by
  unfold sizeEndpoints
  split
  · exact bind_safe (toU64_safe hE _) fun _ _ => bind_safe (toU64_safe hE _) fun _ _ => trivial
  · exact hE.st _

theorem limitOf_safe (s : String) (n : Node) : (limitOf env s n).Safe E fun _ => True := by
  unfold limitOf; split
  · trivial
  · exact hE.st _

theorem shl1_safe {s : Nat} (h : s < 128) : (shl1 s).Safe E fun _ => True := by
  unfold shl1; rw [if_pos h]; trivial

theorem validateSizeUint_safe (z : Node × Node × Bool) (v : Value) :
    (validateSizeUint z v).Safe E fun _ => True := by
  refine bind_safe (sizeEndpoints_safe hE _ _) fun x _ => ?_
  dsimp only
  repeat' split
  all_goals first
    | trivial
    | exact hE.mm _
    | skip
  refine bind_safe (shl1_safe hE (by omega)) fun _ _ => ?_
  split
  · trivial
  · exact hE.mm _

theorem validateSizeTstr_safe (z : Node × Node × Bool) (v : Value) :
    (validateSizeTstr z v).Safe E fun _ => True := by
  refine bind_safe (sizeEndpoints_safe hE _ _) fun x _ => ?_
  dsimp only
  repeat' split
  all_goals first
    | trivial
    | exact hE.mm _

theorem validateSizeBstr_safe (z : Node × Node × Bool) (v : Value) :
    (validateSizeBstr z v).Safe E fun _ => True := by
  refine bind_safe (sizeEndpoints_safe hE _ _) fun x _ => ?_
  dsimp only
  repeat' split
  all_goals first
    | trivial
    | exact hE.mm _

theorem control_safe {r : Rec} (h : GoodRec env E r) (op : CtlOp) (t a : Node) (v : Value) (c : Ctx) :
    (validateControl env r op t a v c).Safe E fun _ => True := by
  have h1 := h.chase t c
  have h2 := h.chase a c
  cases op <;> simp only [validateControl]
  · refine bind_safe h2 fun _ _ => bind_safe (normalizeSizeRange_safe hE _) fun _ _ =>
      bind_safe h1 fun _ _ => ?_
    split
    · exact validateSizeUint_safe hE _ _
    · exact validateSizeTstr_safe hE _ _
    · exact validateSizeBstr_safe hE _ _
    · exact hE.st _
  all_goals
    refine bind_safe h2 fun _ _ => bind_safe (limitOf_safe hE _ _) fun lim _ =>
      bind_safe h1 fun _ _ => ?_
    split <;> first | exact hE.st _ | skip
  all_goals
    cases v <;> first | exact hE.mm _ | skip
  all_goals
    simp only [validateLtUint, validateLtNint, validateLtInt, validateLeUint, validateLeNint,
      validateLeInt, validateGtUint, validateGtNint, validateGtInt, validateGeUint, validateGeNint,
      validateGeInt]
    repeat' split
  all_goals first | trivial | exact hE.mm _

theorem choiceifyMembers_safe {r : Rec} (h : GoodRec env E r) (l : List Node) {v : Value} (c : Ctx)
    (hv : v.WF) : (validateChoiceifyMembers r l v c).Safe E fun _ => True := by
  refine choiceLoop_safe (hE.mm _) _ fun n _ => ?_
  cases n <;> simp only [choiceifyItem] <;> first | exact h.val _ _ _ hv | exact h.chf _ _ _ _ hv

theorem arrayValue_safe {r : Rec} (h : GoodRec env E r) (n : Node) (w : WArr) (c : Ctx) (k : Nat)
    (hw : w.Inv k) : (validateArrayValue env r n w c).Safe E (WArr.Inv k) := by
  obtain ⟨h1, h2, h3⟩ := hw
  unfold validateArrayValue
  split
  · rename_i x xs hx
    have hv := h.val x n c (h1 x (by simp [hx]))
    cases hr : r.val x n c with
    | ok =>
      dsimp only
      unfold WArr.popFront
      rw [hx]
      dsimp only
      split
      · rename_i hs
        rw [hs] at h3
        exact ⟨fun v hv => h1 v (by simp [hx, hv]), by simp, h3⟩
      · rename_i s ss hs
        rw [hs] at h3 h2
        refine ⟨fun v hv => h1 v (by simp [hx, hv]), ?_, h3⟩
        intro t ht v hv
        rcases List.mem_cons.mp ht with rfl | ht
        · rcases List.mem_append.mp hv with hv | hv
          · exact h2 s (by simp) v hv
          · simp only [List.mem_singleton] at hv; subst hv; exact h1 _ (by simp [hx])
        · exact h2 t (by simp [ht]) v hv
    | err e => rw [hr] at hv; exact ⟨hv, h1, h2, h3⟩
    | panic => rw [hr] at hv; exact hv
    | fuel => trivial
  · exact ⟨hE.mm _, h1, h2, h3⟩

omit hE in
theorem WArr.Inv.snapshot {w : WArr} {k : Nat} (h : w.Inv k) : w.snapshot.Inv (k + 1) := by
  obtain ⟨h1, h2, h3⟩ := h
  refine ⟨h1, ?_, by simp [WArr.snapshot, h3]⟩
  intro s hs
  rcases List.mem_cons.mp hs with rfl | hs
  · simp
  · exact h2 s hs

omit hE in
theorem WMap.Inv.snapshot {w : WMap} {k : Nat} (h : w.Inv k) : w.snapshot.Inv (k + 1) := by
  obtain ⟨h0, h1, h2, h3⟩ := h
  refine ⟨h0, h1, ?_, by simp [WMap.snapshot, h3]⟩
  intro s hs
  rcases List.mem_cons.mp hs with rfl | hs
  · simp
  · exact h2 s hs

theorem arr_safe {r : Rec} (h : GoodRec env E r) (n : Node) (w : WArr) (c : Ctx) (k : Nat)
    (hw : w.Inv k) : (arrBody env r n w c).Safe E (WArr.Inv k) := by
  have dflt := fun n => arrayValue_safe hE h n w c k hw
  cases n <;> simp only [arrBody] <;> try exact dflt _
  case occur lim n =>
    exact occurLoopS_safe (hE.mm _) (fun w hw => h.arr _ _ _ _ hw) _ _ _ hw
  case rule s l =>
    cases hl : c.lookupRule env s l with
    | ok a => exact h.arr _ _ _ _ hw
    | error e => exact ⟨lookupRule_err hE hl, hw⟩
  case unwrap s l =>
    cases hl : c.lookupRule env s l with
    | ok a =>
      dsimp only
      unfold validateArrayUnwrap
      split
      · exact seqLoopS_safe _ _ hw fun _ _ w hw => h.arr _ _ _ _ hw
      · exact ⟨hE.mm _, hw⟩
    | error e => exact ⟨lookupRule_err hE hl, hw⟩
  case choice l =>
    exact choiceLoopS_safe (hE.mm _) _ _ hw fun _ _ w hw => h.arr _ _ _ _ hw
  case group l =>
    unfold validateArrayGroup
    have := seqLoopS_safe (E := E) (I := WArr.Inv (k + 1)) (f := fun m w => r.arr m w c) l w.snapshot
      hw.snapshot fun _ _ w hw => h.arr _ _ _ _ hw
    revert this
    cases seqLoopS (fun m w => r.arr m w c) l w.snapshot with
    | ok w' =>
      rintro ⟨h1, h2, h3⟩
      dsimp only
      unfold WArr.commit
      split
      · rename_i hs; rw [hs] at h3; cases h3
      · rename_i s ss hs
        rw [hs] at h3 h2
        exact ⟨h1, fun t ht => h2 t (by simp [ht]), by simpa using h3⟩
    | err e w' =>
      rintro ⟨he, h1, h2, h3⟩
      dsimp only
      unfold WArr.rewind
      split
      · rename_i w'' hw'
        split at hw'
        · cases hw'
        · rename_i s ss hs
          cases hw'
          rw [hs] at h3 h2
          refine ⟨he, ?_, fun t ht => h2 t (by simp [ht]), by simpa using h3⟩
          intro v hv
          rcases List.mem_append.mp hv with hv | hv
          · exact h2 s (by simp) v hv
          · exact h1 v hv
      · rename_i hw'
        split
        · rename_i hs; rw [hs] at h3; cases h3
        · rename_i s ss hs
          exact absurd (by rw [hs]) (hw' _)
    | panic => exact fun h => h
    | fuel => exact fun h => h

omit hE in
theorem mapKeyvalue_safe (hE : OkErr env E) {r : Rec} (h : GoodRec env E r) (kn vn : Node) (cut : Bool)
    (w : WMap) (c : Ctx) (k : Nat) (hw : w.Inv k) :
    (validateMapKeyvalue env r kn vn cut w c).Safe (fun _ => True) (WMap.Inv k) := by
  obtain ⟨h0, h1, h2, h3⟩ := hw
  have hkey : (validateMapKey env r kn w c).Safe (fun _ => True) fun p => p ∈ w.map := by
    have srch : (mapSearch env r kn w c).Safe (fun _ => True) fun p => p ∈ w.map := by
      refine mapSearchLoop_safe trivial _ fun p hp hpn => ?_
      have := h.val p.1 kn c (h1 p hp).1
      rw [hpn] at this; exact this
    unfold validateMapKey
    split
    · unfold mapSearchLiteral
      split
      · rename_i v hv
        exact (VMap.get_some h0).mp hv
      · trivial
    · exact srch
  unfold validateMapKeyvalue
  cases hkk : validateMapKey env r kn w c with
  | ok p =>
    obtain ⟨wk, wv⟩ := p
    rw [hkk] at hkey
    have hmem : (wk, wv) ∈ w.map := hkey
    have hv := h.val wv vn c (h1 _ hmem).2
    dsimp only
    cases hr : r.val wv vn c with
    | ok =>
      dsimp only
      unfold WMap.remove
      rw [VMap.remove_some h0 hmem]
      dsimp only
      split
      · rename_i hs
        rw [hs] at h3
        exact ⟨h0.without _, fun p hp => h1 p (VMap.mem_without.mp hp).1, by simp, h3⟩
      · rename_i s ss hs
        rw [hs] at h3 h2
        refine ⟨h0.without _, fun p hp => h1 p (VMap.mem_without.mp hp).1, ?_, h3⟩
        intro t ht p hp
        rcases List.mem_cons.mp ht with rfl | ht
        · rcases List.mem_append.mp hp with hp | hp
          · exact h2 s (by simp) p hp
          · simp only [List.mem_singleton] at hp; subst hp; exact h1 _ hmem
        · exact h2 t (by simp [ht]) p hp
    | err e =>
      dsimp only
      split <;> exact ⟨trivial, h0, h1, h2, h3⟩
    | panic => rw [hr] at hv; exact hv
    | fuel => trivial
  | err e => exact ⟨trivial, h0, h1, h2, h3⟩
  | panic => rw [hkk] at hkey; exact hkey
  | fuel => trivial

theorem map_safe {r : Rec} (h : GoodRec env E r) (n : Node) (w : WMap) (c : Ctx) (k : Nat)
    (hw : w.Inv k) : (mapBody env r n w c).Safe (fun _ => True) (WMap.Inv k) := by
  cases n <;> simp only [mapBody] <;> try exact ⟨trivial, hw⟩
  case occur lim n =>
    exact occurLoopS_safe trivial (fun w hw => h.map _ _ _ _ hw) _ _ _ hw
  case keyValue => exact mapKeyvalue_safe hE h _ _ _ _ _ _ hw
  case rule s l =>
    cases hl : c.lookupRule env s l with
    | ok a => exact h.map _ _ _ _ hw
    | error e => exact ⟨trivial, hw⟩
  case unwrap s l =>
    cases hl : c.lookupRule env s l with
    | ok a =>
      dsimp only
      unfold validateMapUnwrap
      split
      · exact seqLoopS_safe _ _ hw fun _ _ w hw => h.map _ _ _ _ hw
      · exact ⟨trivial, hw⟩
    | error e => exact ⟨trivial, hw⟩
  case choice l => exact choiceLoopS_safe trivial _ _ hw fun _ _ w hw => h.map _ _ _ _ hw
  case choiceifyInline l => exact choiceLoopS_safe trivial _ _ hw fun _ _ w hw => h.map _ _ _ _ hw
  case choiceify s l => exact h.mchf _ _ _ _ _ hw
  case group l =>
    unfold validateMapGroup
    have := seqLoopS_safe (E := fun _ => True) (I := WMap.Inv (k + 1)) (f := fun m w => r.map m w c) l
      w.snapshot hw.snapshot fun _ _ w hw => h.map _ _ _ _ hw
    revert this
    cases seqLoopS (fun m w => r.map m w c) l w.snapshot with
    | ok w' =>
      rintro ⟨h0, h1, h2, h3⟩
      dsimp only
      unfold WMap.commit
      split
      · rename_i hs; rw [hs] at h3; cases h3
      · rename_i s ss hs
        rw [hs] at h3 h2
        exact ⟨h0, h1, fun t ht => h2 t (by simp [ht]), by simpa using h3⟩
    | err e w' =>
      rintro ⟨he, h0, h1, h2, h3⟩
      dsimp only
      unfold WMap.rewind
      split
      · rename_i w'' hw'
        split at hw'
        · cases hw'
        · rename_i s ss hs
          cases hw'
          rw [hs] at h3 h2
          refine ⟨trivial, h0.extend s, ?_, fun t ht => h2 t (by simp [ht]), by simpa using h3⟩
          intro p hp
          rcases VMap.mem_extend h0 hp with hp | hp
          · exact h1 p hp
          · exact h2 s (by simp) p hp
      · rename_i hw'
        split
        · rename_i hs; rw [hs] at h3; cases h3
        · rename_i s ss hs
          exact absurd (by rw [hs]) (hw' _)
    | panic => exact fun h => h
    | fuel => exact fun h => h

theorem step_good {r : Rec} (h : GoodRec env E r) : GoodRec env E (step env r) where
  val v n c hv := by
    show (valBody env r v n c).Safe E _
    cases n <;> simp only [valBody]
    case literal =>
      unfold validateLiteral; split
      · trivial
      · exact hE.mm _
    case prelude => exact validatePreludeType_safe hE _ _
    case rule => exact bind_safe (lookupRule_safe hE _ _ _) fun _ _ => h.val _ _ _ hv
    case choice l => exact choiceLoop_safe (hE.mm _) _ fun _ _ => h.val _ _ _ hv
    case map l =>
      unfold validateMap
      split
      · rename_i m
        obtain ⟨hs, hm⟩ := hv
        have := seqLoopS_safe (E := fun _ => True) (I := WMap.Inv 0) (f := fun m w => r.map m w c) l
          (WMap.new m) ⟨(VMap.sorted_iff _).mp hs, (Value.WFMap_iff _).mp hm, by simp [WMap.new],
            by simp [WMap.new]⟩
          fun _ _ w hw => h.map _ _ _ _ hw
        revert this
        cases seqLoopS (fun m w => r.map m w c) l (WMap.new m) with
        | ok w' =>
          intro _
          dsimp only
          split
          · trivial
          · exact hE.mm _
        | err e w' =>
          intro _
          refine hE.std _ fun m => ?_
          cases e <;> simp [Err.eraseMapcut]
        | panic => exact fun h => h
        | fuel => exact fun _ => trivial
      · exact hE.mm _
    case array l =>
      unfold validateArray
      split
      · rename_i m
        have := seqLoopS_safe (E := E) (I := WArr.Inv 0) (f := fun m w => r.arr m w c) l
          (WArr.new m) ⟨(Value.WFArr_iff _).mp hv, by simp [WArr.new], by simp [WArr.new]⟩
          fun _ _ w hw => h.arr _ _ _ _ hw
        revert this
        cases seqLoopS (fun m w => r.arr m w c) l (WArr.new m) with
        | ok w' =>
          intro _
          dsimp only
          split
          · trivial
          · exact hE.mm _
        | err e w' => exact fun h => h.1
        | panic => exact fun h => h
        | fuel => exact fun _ => trivial
      · exact hE.mm _
    case group l =>
      unfold validateStandaloneGroup
      split
      · exact h.val _ _ _ hv
      · exact hE.std _ (by simp)
    case keyValue => exact hE.st _
    case occur => exact hE.st _
    case unwrap => exact hE.st _
    case range => exact bind_safe (h.deref _ _) fun _ _ => bind_safe (h.deref _ _) fun _ _ =>
      rangeMatch_safe hE _ _ _ _ _
    case ctl => exact control_safe hE h _ _ _ _ _
    case ctlRegexp =>
      unfold validateControlRegexp
      split
      · split
        · trivial
        · exact hE.mm _
      · exact hE.mm _
    case ctlCbor =>
      unfold validateControlCbor
      split
      · split
        · exact hE.std _ (by simp)
        · rename_i cb _
          cases hc : cb.toValue with
          | error e =>
            show E e
            refine hE.std _ fun m hm => ?_
            subst hm
            exact Cbor.toValue_notCut cb m hc
          | ok v' => exact h.val _ _ _ (Cbor.toValue_WF cb v' hc)
      · exact hE.mm _
    case choiceify => exact h.chf _ _ _ _ hv
    case choiceifyInline => exact choiceifyMembers_safe hE h _ _ hv
  chf s l v c hv := by
    show (chfBody env r s l v c).Safe E _
    refine bind_safe (lookupRule_safe hE _ _ _) fun a _ => ?_
    split
    · exact choiceifyMembers_safe hE h _ _ hv
    · exact h.chf _ _ _ _ hv
    · exact hE.st _
  arr := arr_safe hE h
  map := map_safe hE h
  mchf s l w c k hw := by
    show (mchfBody env r s l w c).Safe _ _
    unfold mchfBody
    cases hl : c.lookupRule env s l with
    | error e => exact ⟨trivial, hw⟩
    | ok a =>
      dsimp only
      split
      · refine choiceLoopS_safe trivial _ _ hw fun n _ w hw => ?_
        cases n <;> simp only [mapChoiceifyItem] <;>
          first | exact h.map _ _ _ _ hw | exact h.mchf _ _ _ _ _ hw
      · exact h.mchf _ _ _ _ _ hw
      · exact ⟨trivial, hw⟩
  deref n c := by
    show (derefBody env r n c).Safe E _
    cases n <;> simp only [derefBody] <;> first | trivial | exact hE.st _ | skip
    exact bind_safe (lookupRule_safe hE _ _ _) fun _ _ => h.deref _ _
  chase n c := by
    show (chaseBody env r n c).Safe E _
    cases n <;> simp only [chaseBody] <;> first | trivial | exact hE.st _ | skip
    exact bind_safe (lookupRule_safe hE _ _ _) fun _ _ => h.chase _ _

theorem fns_good : ∀ n, GoodRec env E (fns env n)
  | 0 => GoodRec.bot env E
  | n + 1 => step_good hE (fns_good n)

theorem lim_good : GoodRec env E (lim env) where
  val v n c hv := by
    obtain ⟨N, h⟩ := (lim_ev env).val v n c
    rw [← h N (Nat.le_refl _)]; exact (fns_good hE N).val _ _ _ hv
  chf s l v c hv := by
    obtain ⟨N, h⟩ := (lim_ev env).chf s l v c
    rw [← h N (Nat.le_refl _)]; exact (fns_good hE N).chf _ _ _ _ hv
  arr n w c k hw := by
    obtain ⟨N, h⟩ := (lim_ev env).arr n w c
    rw [← h N (Nat.le_refl _)]; exact (fns_good hE N).arr _ _ _ _ hw
  map n w c k hw := by
    obtain ⟨N, h⟩ := (lim_ev env).map n w c
    rw [← h N (Nat.le_refl _)]; exact (fns_good hE N).map _ _ _ _ hw
  mchf s l w c k hw := by
    obtain ⟨N, h⟩ := (lim_ev env).mchf s l w c
    rw [← h N (Nat.le_refl _)]; exact (fns_good hE N).mchf _ _ _ _ _ hw
  deref n c := by
    obtain ⟨N, h⟩ := (lim_ev env).deref n c
    rw [← h N (Nat.le_refl _)]; exact (fns_good hE N).deref _ _
  chase n c := by
    obtain ⟨N, h⟩ := (lim_ev env).chase n c
    rw [← h N (Nat.le_refl _)]; exact (fns_good hE N).chase _ _

end Step

theorem OkErr.triv (env : Env) : OkErr env fun _ => True := ⟨fun _ _ => trivial, fun _ _ _ => trivial⟩

end Cddl
