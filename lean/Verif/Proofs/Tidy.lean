import Verif.Spec.Tidy
import Verif.Proofs.Term
import Verif.Proofs.Guard

/-! # Used as planned, a schema gives no errors of its own -/

namespace Cddl

/-- The errors that are left. -/
def Plan.Ok (J : Plan) : Err → Prop
  | .mismatch _ => True
  | .mapCut _ => True
  | .structural m => J.limit = true ∧ m = "hit recursion limit"
  | .valueError _ => J.cbor = true
  | _ => False

/-- Errors satisfy `E`, answers `P`. -/
def Res.Errs {α : Type} (E : Err → Prop) (P : α → Prop) : Res α → Prop
  | .ok a => P a
  | .err e => E e
  | _ => True

/-- Errors satisfy `E`, working copies `I`. -/
def SRes.Errs {σ : Type} (E : Err → Prop) (I : σ → Prop) : SRes σ → Prop
  | .ok w => I w
  | .err e w => E e ∧ I w
  | _ => True

theorem Res.Errs.bind {α β : Type} {E : Err → Prop} {P : α → Prop} {Q : β → Prop} {a : Res α} {f : α → Res β}
    (ha : a.Errs E P) (hf : ∀ x, P x → (f x).Errs E Q) : (a.bind f).Errs E Q := by
  cases a with
  | ok x => exact hf x ha
  | err e => exact ha
  | panic => trivial
  | fuel => trivial

section Loops
variable {σ : Type} {E : Err → Prop}

theorem choiceLoop_errs {f : Node → Res Unit} {msg : String} (hm : E (.mismatch msg)) :
    ∀ l : List Node, (∀ n ∈ l, (f n).Errs E fun _ => True) → (choiceLoop f msg l).Errs E fun _ => True
  | [], _ => hm
  | n :: ns, h => by
    have h1 := h n (by simp)
    have h2 := choiceLoop_errs hm ns fun m hm => h m (by simp [hm])
    simp only [choiceLoop]
    cases hf : f n with
    | err e =>
      rw [hf] at h1
      dsimp only; split
      · exact h1
      · exact h2
    | ok => trivial
    | fuel => trivial
    | panic => trivial

theorem choiceLoopS_errs {I : σ → Prop} {f : Node → σ → SRes σ} {stop : Err → Bool} {msg : String} (hm : E (.mismatch msg)) :
    ∀ (l : List Node) (w : σ), I w → (∀ n ∈ l, ∀ w, I w → (f n w).Errs E I) → (choiceLoopS f stop msg l w).Errs E I
  | [], _, hw, _ => ⟨hm, hw⟩
  | n :: ns, w, hw, h => by
    have h1 := h n (by simp) w hw
    have h2 := fun w hw => choiceLoopS_errs (stop := stop) hm ns w hw fun m hm => h m (by simp [hm])
    simp only [choiceLoopS]
    cases hf : f n w with
    | err e w' =>
      rw [hf] at h1
      dsimp only; split
      · exact h1
      · exact h2 _ h1.2
    | ok => rw [hf] at h1; exact h1
    | fuel => trivial
    | panic => trivial

theorem seqLoopS_errs {I : σ → Prop} {f : Node → σ → SRes σ} :
    ∀ (l : List Node) (w : σ), I w → (∀ n ∈ l, ∀ w, I w → (f n w).Errs E I) → (seqLoopS f l w).Errs E I
  | [], _, hw, _ => hw
  | n :: ns, w, hw, h => by
    have h1 := h n (by simp) w hw
    have h2 := fun w hw => seqLoopS_errs ns w hw fun m hm => h m (by simp [hm])
    simp only [seqLoopS]
    cases hf : f n w with
    | ok w' => rw [hf] at h1; exact h2 _ h1
    | err e w' => rw [hf] at h1; exact h1
    | fuel => trivial
    | panic => trivial

theorem occurLoopS_errs {I : σ → Prop} {f : σ → SRes σ} {lo up : Nat} {msg : String} (hm : E (.mismatch msg))
    (h : ∀ w, I w → (f w).Errs E I) : ∀ (k c : Nat) (w : σ), I w → (occurLoopS f lo up msg k c w).Errs E I
  | 0, _, _, _ => trivial
  | k + 1, c, w, hw => by
    have h1 := h w hw
    simp only [occurLoopS]
    cases hf : f w with
    | ok w' =>
      rw [hf] at h1
      dsimp only
      split
      · split
        · exact ⟨hm, h1⟩
        · exact h1
      · exact occurLoopS_errs hm h k (c + 1) w' h1
    | err e w' =>
      rw [hf] at h1
      dsimp only; split
      · split
        · exact ⟨hm, h1.2⟩
        · exact h1.2
      · exact h1
    | fuel => trivial
    | panic => trivial

theorem mapSearchLoop_errs {f : Value → Res Unit} {msg : String} (hm : E (.mismatch msg)) :
    ∀ l : VMap, (mapSearchLoop f msg l).Errs E fun p => p ∈ l
  | [] => hm
  | (k, v) :: t => by
    have h2 := mapSearchLoop_errs (f := f) hm t
    simp only [mapSearchLoop]
    cases f k with
    | ok => exact List.mem_cons_self
    | err e =>
      dsimp only
      revert h2
      cases mapSearchLoop f msg t <;> simp [Res.Errs]
      intro h; exact Or.inr h
    | fuel => trivial
    | panic => trivial

end Loops

theorem VMap.get_pair : ∀ {m : VMap} {k v : Value}, VMap.get m k = some v → ∃ k', (k', v) ∈ m
  | [], _, _, h => by simp [VMap.get] at h
  | (k', v') :: t, k, v, h => by
    simp only [VMap.get] at h
    split at h
    · cases h
    · cases h; exact ⟨k', List.mem_cons_self⟩
    · obtain ⟨k'', h'⟩ := VMap.get_pair h
      exact ⟨k'', List.mem_cons_of_mem _ h'⟩

theorem VMap.remove_mem : ∀ {m : VMap} {k v : Value} {m' : VMap}, VMap.remove m k = some (v, m') →
    (∃ k', (k', v) ∈ m) ∧ ∀ p ∈ m', p ∈ m
  | [], _, _, _, h => by simp [VMap.remove] at h
  | (k', v') :: t, k, v, m', h => by
    simp only [VMap.remove] at h
    split at h
    · cases h
    · cases h
      exact ⟨⟨k', List.mem_cons_self⟩, fun p hp => List.mem_cons_of_mem _ hp⟩
    · split at h
      · cases h
      · rename_i w t' ht
        cases h
        obtain ⟨⟨k'', h1⟩, h2⟩ := VMap.remove_mem ht
        refine ⟨⟨k'', List.mem_cons_of_mem _ h1⟩, fun p hp => ?_⟩
        rcases List.mem_cons.mp hp with rfl | hp
        · exact List.mem_cons_self
        · exact List.mem_cons_of_mem _ (h2 p hp)

theorem VMap.insert_all {Q : Value → Prop} {k v : Value} (hv : Q v) : ∀ {m : VMap}, (∀ p ∈ m, Q p.2) →
    ∀ p ∈ VMap.insert m k v, Q p.2
  | [], _, p, hp => by
    simp only [VMap.insert, List.mem_singleton] at hp
    subst hp
    exact hv
  | (k', v') :: t, h, p, hp => by
    simp only [VMap.insert] at hp
    split at hp
    · rcases List.mem_cons.mp hp with rfl | hp
      · exact hv
      · exact h p hp
    · rcases List.mem_cons.mp hp with rfl | hp
      · exact hv
      · exact h p (List.mem_cons_of_mem _ hp)
    · rcases List.mem_cons.mp hp with rfl | hp
      · exact h _ List.mem_cons_self
      · exact VMap.insert_all hv (fun p hp => h p (List.mem_cons_of_mem _ hp)) p hp

theorem VMap.extend_all {Q : Value → Prop} : ∀ {l : List (Value × Value)} {m : VMap}, (∀ p ∈ m, Q p.2) →
    (∀ p ∈ l, Q p.2) → ∀ p ∈ VMap.extend m l, Q p.2
  | [], _, h, _, p, hp => h p hp
  | q :: l, m, h, hl, p, hp => by
    refine VMap.extend_all (l := l) (m := VMap.insert m q.1 q.2) ?_ (fun p hp => hl p (List.mem_cons_of_mem _ hp)) p hp
    exact VMap.insert_all (hl q List.mem_cons_self) h

/-- Everything in the working array has at most this height. -/
def WArr.Low (h : Nat) (w : WArr) : Prop :=
  (∀ v ∈ w.array, v.height ≤ h) ∧ ∀ s ∈ w.snaps, ∀ v ∈ s, v.height ≤ h

/-- Every value in the working map has at most this height. -/
def WMap.Low (h : Nat) (w : WMap) : Prop :=
  (∀ p ∈ w.map, p.2.height ≤ h) ∧ ∀ s ∈ w.snaps, ∀ p ∈ s, p.2.height ≤ h

theorem WArr.Low.snapshot {w : WArr} {h : Nat} (hw : w.Low h) : w.snapshot.Low h := by
  refine ⟨hw.1, fun s hs => ?_⟩
  rcases List.mem_cons.mp hs with rfl | hs
  · simp
  · exact hw.2 s hs

theorem WMap.Low.snapshot {w : WMap} {h : Nat} (hw : w.Low h) : w.snapshot.Low h := by
  refine ⟨hw.1, fun s hs => ?_⟩
  rcases List.mem_cons.mp hs with rfl | hs
  · simp
  · exact hw.2 s hs

theorem Value.height_memM {l : List (Value × Value)} {p : Value × Value} (h : p ∈ l) : p.2.height ≤ Value.heightM l :=
  (Value.height_pair h).2

/-- Arguments suit the parameters they are bound to. -/
inductive ArgsFit (J : Plan) (P : Site) : List (String × ParamUse) → List (String × Node) → Prop
  | nil : ArgsFit J P [] []
  | cons {p us a l g} : (∀ u ∈ us.near, a.tidy J P u = true) → (∀ u ∈ us.far, a.tidy J (P.enter J) u = true) →
      ArgsFit J P l g → ArgsFit J P ((p, us) :: l) ((p, a) :: g)

/-- There is room for looking up rules: below the rank for data of height `h`. -/
def Plan.Room (J : Plan) (h : Nat) (P : Site) (d : Nat) : Prop :=
  J.limit = true ∨ d + P.rank + J.slack * h ≤ maxDepth

/-- The scope is one for this place, while data of height `h` is looked at. -/
inductive Placed (J : Plan) (h : Nat) : Site → Ctx → Prop
  | root {P : Site} {d : Nat} : P.params = [] → J.Room h P d → Placed J h P (.root d)
  | frame {P P' : Site} {g : List (String × Node)} {past : Ctx} {d : Nat} : ArgsFit J P' P.params g → Placed J h P' past →
      (P.inside = true → Placed J h (P'.enter J) past) → J.Room h P d → Placed J h P (.frame g past d)

theorem Placed.room {J : Plan} {h : Nat} {P : Site} {c : Ctx} (hc : Placed J h P c) : J.Room h P c.depth := by
  cases hc with
  | root _ h => exact h
  | frame _ _ _ h => exact h

theorem Placed.mono {J : Plan} {h h' : Nat} {P : Site} {c : Ctx} (hc : Placed J h P c)
    (hh : ∀ P d, J.Room h P d → J.Room h' P d) : Placed J h' P c := by
  induction hc with
  | root hp h => exact .root hp (hh _ _ h)
  | frame ha _ _ h ih1 ih2 => exact .frame ha ih1 ih2 (hh _ _ h)

theorem Placed.enter {J : Plan} {h : Nat} {P : Site} {c : Ctx} (hc : Placed J (h + 1) P c) : Placed J h (P.enter J) c := by
  have hle : ∀ P d, J.Room (h + 1) P d → J.Room h P d := fun P d hr => hr.imp id fun hr => by
    rw [Nat.mul_add] at hr
    omega
  have hen : ∀ P d, J.Room (h + 1) P d → J.Room h (P.enter J) d := fun P d hr => hr.imp id fun hr => by
    rw [Nat.mul_add] at hr
    simp only [Site.enter]
    have : Nat.max P.rank J.slack ≤ P.rank + J.slack :=
      Nat.max_le.mpr ⟨Nat.le_add_right P.rank J.slack, Nat.le_add_left J.slack P.rank⟩
    omega
  induction hc with
  | root hp h => exact .root hp (hen _ _ h)
  | frame ha hp _ h ih1 _ => exact .frame ha (hp.mono hle) (fun _ => ih1) (hen _ _ h)

theorem ArgsFit.find {J : Plan} {P : Site} {s : String} : ∀ {l : List (String × ParamUse)} {g : List (String × Node)},
    ArgsFit J P l g → (Site.find s l = none ∧ gmapFind g s = none) ∨
      ∃ us a, Site.find s l = some us ∧ gmapFind g s = some a ∧ (∀ u ∈ us.near, a.tidy J P u = true) ∧
        ∀ u ∈ us.far, a.tidy J (P.enter J) u = true
  | _, _, .nil => .inl ⟨rfl, rfl⟩
  | _, _, .cons (p := p) h h' hg => by
    rcases hg.find (s := s) with ⟨h1, h2⟩ | ⟨us, a, h1, h2, h3⟩
    · simp only [Site.find, gmapFind, h1, h2]
      split
      · exact .inr ⟨_, _, rfl, rfl, h, h'⟩
      · exact .inl ⟨rfl, rfl⟩
    · simp only [Site.find, gmapFind, h1, h2]
      exact .inr ⟨_, _, rfl, rfl, h3⟩

theorem argsFit_zip {J : Plan} {P : Site} : ∀ {ps : List String} {l : List ParamUse} {as : List Node},
    ps.length = l.length → l.length = as.length → Node.tidyArgs J P l as = true → ArgsFit J P (ps.zip l) (ps.zip as)
  | [], [], [], _, _, _ => .nil
  | p :: ps, us :: l, a :: as, h1, h2, h => by
    simp only [Node.tidyArgs, Bool.and_eq_true, List.all_eq_true] at h
    exact .cons h.1.1 h.1.2 (argsFit_zip (by simpa using h1) (by simpa using h2) h.2)

section
variable {J : Plan} {env : Env} (hJ : J.Fits env)
include hJ

/-- Looking up a name that is used as planned. -/
theorem lookupRule_tidy {h₀ : Nat} {P : Site} {c : Ctx} {u : Purpose} {s : String} {as : List Node} (hc : Placed J h₀ P c)
    (h : nameTidy J P u s as (Node.tidyArgs J P (J.params s) as) = true) :
    (∃ n c' P', c.lookupRule env s as = .ok (n, c') ∧ Placed J h₀ P' c' ∧ n.tidy J P' u = true) ∨
    ∃ e, c.lookupRule env s as = .error e ∧ J.Ok e := by
  have key : Site.find s P.params = none →
      (∃ n c' P', ((env.lookup s).bind fun rd => (c.derive rd as).bind fun c => .ok (rd.node, c))
        = (Except.ok (n, c') : Except Err (Node × Ctx)) ∧ Placed J h₀ P' c' ∧ n.tidy J P' u = true) ∨
      ∃ e, ((env.lookup s).bind fun rd => (c.derive rd as).bind fun c => .ok (rd.node, c))
        = (Except.error e : Except Err (Node × Ctx)) ∧ J.Ok e := by
    intro hf
    simp only [nameTidy, hf, Bool.and_eq_true, decide_eq_true_eq, Bool.or_eq_true, List.contains_iff_mem] at h
    obtain ⟨⟨⟨hu, hk⟩, hlen⟩, ha⟩ := h
    obtain ⟨d, hd, hp, hn⟩ := hJ s u hu
    rw [hd]
    simp only [Except.bind]
    unfold Ctx.derive Ctx.incDepth
    rw [if_neg (by omega)]
    split
    · rename_i e he
      right
      refine ⟨_, rfl, ?_⟩
      simp only [Except.bind] at he
      split at he
      · rename_i e' hdd
        cases he
        split at hdd
        · rename_i hge
          cases hdd
          rcases hc.room with hl | hl
          · exact ⟨hl, rfl⟩
          · rcases hk with hk | hk
            · exact ⟨hk, rfl⟩
            · omega
        · cases hdd
      · cases he
    · rename_i c' he
      left
      simp only [Except.bind] at he
      split at he
      · cases he
      · rename_i dd hdd
        cases he
        split at hdd
        · cases hdd
        · cases hdd
          refine ⟨_, _, J.place s d, rfl, .frame (argsFit_zip hp hlen ha) hc (fun h => by cases h) ?_, hn⟩
          rcases hc.room with hl | hl
          · exact .inl hl
          · rcases hk with hk | hk
            · exact .inl hk
            · right
              show c.depth + 1 + J.rank s + J.slack * h₀ ≤ maxDepth
              omega
  unfold Ctx.lookupRule
  cases hc with
  | root hP hd => exact key (by rw [hP]; rfl)
  | @frame _ P' g past d hg hp hi hd =>
    dsimp only
    rcases hg.find (s := s) with ⟨h1, h2⟩ | ⟨us, a, h1, h2, h3, h4⟩
    · rw [h2]
      exact key h1
    · rw [h2]
      simp only [nameTidy, h1, List.contains_iff_mem, Bool.or_eq_true, Bool.and_eq_true] at h
      rcases h with h | ⟨h, h'⟩
      · exact .inl ⟨_, _, P', rfl, hp, h3 u h⟩
      · exact .inl ⟨_, _, P'.enter J, rfl, hi h, h4 u h'⟩

end

/-- What following names leads to. -/
def Purpose.Ends : Purpose → Node → Prop
  | .int, m => ∃ i, m = .literal (.int i)
  | .size, m => m.isU64 = true ∨ ∃ a b i, m = .range a b i ∧ a.isU64 = true ∧ b.isU64 = true
  | .intTarget, m => m = .prelude .uint ∨ m = .prelude .nint ∨ m = .prelude .int
  | .sizeTarget, m => m = .prelude .uint ∨ m = .prelude .tstr ∨ m = .prelude .bstr
  | _, _ => False

/-- The uses in operators. -/
def Purpose.operand : Purpose → Bool
  | .int | .size | .intTarget | .sizeTarget => true
  | _ => false

/-- A good round of the functions. -/
structure TidyRec (J : Plan) (env : Env) (r : Rec) : Prop where
  val : ∀ v n c h P, v.height ≤ h → Placed J h P c → n.tidy J P .type = true → (r.val v n c).Errs J.Ok fun _ => True
  chf : ∀ s l v c h P, v.height ≤ h → Placed J h P c →
    nameTidy J P .pick s l (Node.tidyArgs J P (J.params s) l) = true → (r.chf s l v c).Errs J.Ok fun _ => True
  arr : ∀ n w c h P, WArr.Low h w → Placed J h P c → n.tidy J P .entry = true → (r.arr n w c).Errs J.Ok (WArr.Low h)
  map : ∀ n w c h P, WMap.Low h w → Placed J h P c → n.tidy J P .member = true → (r.map n w c).Errs J.Ok (WMap.Low h)
  mchf : ∀ s l w c h P, WMap.Low h w → Placed J h P c →
    nameTidy J P .mpick s l (Node.tidyArgs J P (J.params s) l) = true → (r.mchf s l w c).Errs J.Ok (WMap.Low h)
  deref : ∀ n c h P k, Placed J h P c → n.tidy J P (.lit k) = true → (r.deref n c).Errs J.Ok fun l => l.kindOf = k
  chase : ∀ n c h P u, u.operand = true → Placed J h P c → n.tidy J P u = true → (r.chase n c).Errs J.Ok u.Ends

theorem tidyL_mem {J : Plan} {P : Site} {u : Purpose} : ∀ {l : List Node}, Node.tidyL J P u l = true →
    ∀ n ∈ l, n.tidy J P u = true
  | [], _, _, h => by cases h
  | m :: l, h, n, hn => by
    simp only [Node.tidyL, Bool.and_eq_true] at h
    rcases List.mem_cons.mp hn with rfl | hn
    · exact h.1
    · exact tidyL_mem h.2 n hn

mutual
theorem Cbor.toValue_valueError : ∀ (c : Cbor) (e : Err), c.toValue = .error e → ∃ m, e = .valueError m
  | .null, e, h => by simp [Cbor.toValue] at h
  | .bool b, e, h => by simp [Cbor.toValue] at h
  | .integer i, e, h => by simp [Cbor.toValue] at h
  | .float f, e, h => by simp [Cbor.toValue] at h
  | .bytes b, e, h => by simp [Cbor.toValue] at h
  | .text s, e, h => by simp [Cbor.toValue] at h
  | .array xs, e, h => by
    have := Cbor.toValues_valueError xs e
    simp only [Cbor.toValue] at h
    cases hx : Cbor.toValues xs <;> simp_all [Except.bind]
  | .map xs, e, h => by
    have := Cbor.toPairs_valueError xs e
    simp only [Cbor.toValue] at h
    cases hx : Cbor.toPairs xs <;> simp_all [Except.bind]
  | .tag _ _, e, h => by
    simp only [Cbor.toValue] at h
    cases h
    exact ⟨_, rfl⟩
theorem Cbor.toValues_valueError : ∀ (c : List Cbor) (e : Err), Cbor.toValues c = .error e → ∃ m, e = .valueError m
  | [], e, h => by simp [Cbor.toValues] at h
  | x :: xs, e, h => by
    have h1 := Cbor.toValue_valueError x e
    have h2 := Cbor.toValues_valueError xs e
    simp only [Cbor.toValues] at h
    cases hx : Cbor.toValue x <;> cases hy : Cbor.toValues xs <;> simp_all [Except.bind]
theorem Cbor.toPairs_valueError : ∀ (c : List (Cbor × Cbor)) (e : Err), Cbor.toPairs c = .error e → ∃ m, e = .valueError m
  | [], e, h => by simp [Cbor.toPairs] at h
  | (k, x) :: xs, e, h => by
    have h0 := Cbor.toValue_valueError k e
    have h1 := Cbor.toValue_valueError x e
    have h2 := Cbor.toPairs_valueError xs e
    simp only [Cbor.toPairs] at h
    cases hk : Cbor.toValue k <;> cases hx : Cbor.toValue x <;> cases hy : Cbor.toPairs xs <;>
      simp_all [Except.bind]
end

section
variable {J : Plan} {env : Env} (hJ : J.Fits env)

theorem TidyRec.bot : TidyRec J env Rec.bot := by
  constructor <;> intros <;> trivial

theorem Plan.Ok.erase {e : Err} (h : J.Ok e) : J.Ok e.eraseMapcut := by
  cases e <;> first | exact h | trivial

theorem validatePreludeType_errs (p : PreludeType) (v : Value) :
    (validatePreludeType p v).Errs J.Ok fun _ => True := by
  cases p <;> cases v <;> simp only [validatePreludeType] <;> (try split) <;> trivial

theorem rangeMatch_errs (s : String) (a b : Literal) (v : Value) (i : Bool) (h : a.kindOf = b.kindOf) :
    (rangeMatch s a b v i).Errs J.Ok fun _ => True := by
  have hk : sameKind a b = true := by
    cases a <;> cases b <;> first | rfl | cases h
  unfold rangeMatch
  split
  · split <;> trivial
  · split <;> trivial
  · rw [if_pos hk]
    trivial

theorem toU64_of {i : Int} (h : (Node.literal (.int i)).isU64 = true) : toU64 i = .ok i.toNat := by
  simp only [Node.isU64, decide_eq_true_eq] at h
  exact if_pos h

theorem isU64_int : ∀ {n : Node}, n.isU64 = true → ∃ i, n = .literal (.int i)
  | .literal (.int i), _ => ⟨i, rfl⟩
  | .literal (.bool _), h => by simp [Node.isU64] at h
  | .literal (.float _), h => by simp [Node.isU64] at h
  | .literal (.text _), h => by simp [Node.isU64] at h
  | .literal (.bytes _), h => by simp [Node.isU64] at h
  | .prelude _, h | .rule _ _, h | .choice _, h | .map _, h | .array _, h | .group _, h | .keyValue _ _ _, h
  | .occur _ _, h | .unwrap _ _, h | .range _ _ _, h | .ctl _ _ _, h | .ctlRegexp _, h | .ctlCbor _, h
  | .choiceify _ _, h | .choiceifyInline _, h => by simp [Node.isU64] at h

theorem normalizeSizeRange_of {n : Node} (h : Purpose.Ends .size n) :
    ∃ a b i, normalizeSizeRange env n = .ok (.literal (.int a), .literal (.int b), i) ∧
      (Node.literal (.int a)).isU64 = true ∧ (Node.literal (.int b)).isU64 = true := by
  rcases h with h | ⟨a, b, i, rfl, ha, hb⟩
  · obtain ⟨i, rfl⟩ := isU64_int h
    refine ⟨i, i, true, ?_, h, h⟩
    simp only [normalizeSizeRange, toU64_of h, Res.bind]
  · obtain ⟨x, rfl⟩ := isU64_int ha
    obtain ⟨y, rfl⟩ := isU64_int hb
    refine ⟨x, y, i, ?_, ha, hb⟩
    simp only [normalizeSizeRange, toU64_of ha, toU64_of hb, Res.bind]

theorem sizeEndpoints_of {s : String} {a b : Int} {i : Bool} (ha : (Node.literal (.int a)).isU64 = true)
    (hb : (Node.literal (.int b)).isU64 = true) :
    sizeEndpoints s (.literal (.int a), .literal (.int b), i) = .ok (a.toNat, b.toNat) := by
  simp only [sizeEndpoints, toU64_of ha, toU64_of hb, Res.bind]

theorem control_errs {r : Rec} (h : TidyRec J env r) {op : CtlOp} {t a : Node} {v : Value} {c : Ctx} {P : Site} {h₀ : Nat}
    (hc : Placed J h₀ P c)
    (hn : (if op = .size then a.tidy J P .size && t.tidy J P .sizeTarget
      else a.tidy J P .int && t.tidy J P .intTarget) = true) :
    (validateControl env r op t a v c).Errs J.Ok fun _ => True := by
  cases op
  case size =>
    simp only [if_true, Bool.and_eq_true] at hn
    refine (h.chase a c h₀ P .size rfl hc hn.1).bind fun m hm => ?_
    obtain ⟨x, y, i, hx, h1, h2⟩ := normalizeSizeRange_of (env := env) hm
    rw [hx]
    simp only [Res.bind]
    refine Res.Errs.bind (h.chase t c h₀ P .sizeTarget rfl hc hn.2) fun m hm => ?_
    rcases hm with rfl | rfl | rfl
    · simp only [validateSizeUint, sizeEndpoints_of h1 h2, Res.bind, shl1]
      repeat' split
      all_goals first | trivial | (rename_i he; split at he <;> cases he <;> dsimp only <;> split <;> trivial)
    · simp only [validateSizeTstr, sizeEndpoints_of h1 h2, Res.bind]
      repeat' split
      all_goals trivial
    · simp only [validateSizeBstr, sizeEndpoints_of h1 h2, Res.bind]
      repeat' split
      all_goals trivial
  all_goals
    simp only [reduceCtorEq, if_false, Bool.and_eq_true] at hn
    refine (h.chase a c h₀ P .int rfl hc hn.1).bind fun m hm => ?_
    obtain ⟨i, rfl⟩ := hm
    simp only [limitOf, Res.bind]
    refine Res.Errs.bind (h.chase t c h₀ P .intTarget rfl hc hn.2) fun m hm => ?_
    rcases hm with rfl | rfl | rfl
  all_goals
    cases v <;> first | trivial | skip
  all_goals
    simp only [validateLtUint, validateLtNint, validateLtInt, validateLeUint, validateLeNint,
      validateLeInt, validateGtUint, validateGtNint, validateGtInt, validateGeUint, validateGeNint,
      validateGeInt]
    repeat' split
  all_goals trivial

include hJ

theorem ofLookup_errs {β : Type} {Q : β → Prop} {P : Site} {h₀ : Nat} {c : Ctx} {u : Purpose} {s : String} {as : List Node}
    (hc : Placed J h₀ P c) (h : nameTidy J P u s as (Node.tidyArgs J P (J.params s) as) = true)
    {f : Node × Ctx → Res β} (hf : ∀ n c' P', Placed J h₀ P' c' → n.tidy J P' u = true → (f (n, c')).Errs J.Ok Q) :
    ((Res.ofExcept (c.lookupRule env s as)).bind f).Errs J.Ok Q := by
  rcases lookupRule_tidy hJ hc h with ⟨n, c', P', hl, hp, ht⟩ | ⟨e, hl, he⟩
  · rw [hl]; exact hf n c' P' hp ht
  · rw [hl]; exact he

omit hJ in
theorem choiceifyMembers_errs {r : Rec} (h : TidyRec J env r) {l : List Node} {v : Value} {c : Ctx} {P : Site} {h₀ : Nat}
    (hv : v.height ≤ h₀) (hc : Placed J h₀ P c) (hl : Node.tidyL J P .pickItem l = true) :
    (validateChoiceifyMembers r l v c).Errs J.Ok fun _ => True := by
  refine choiceLoop_errs trivial _ fun n hn => ?_
  have := tidyL_mem hl n hn
  cases n <;> simp only [choiceifyItem] <;> simp only [Node.tidy] at this <;>
    first
    | exact h.chf _ _ _ _ _ _ hv hc this
    | exact h.val _ _ _ _ _ hv hc this
    | exact h.val _ _ _ _ P hv hc (by simp only [Node.tidy]; try exact this)

omit hJ in
theorem arrayValue_errs {r : Rec} (h : TidyRec J env r) {n : Node} {w : WArr} {c : Ctx} {P : Site} {h₀ : Nat}
    (hw : WArr.Low h₀ w) (hc : Placed J h₀ P c) (hn : n.tidy J P .type = true) :
    (validateArrayValue env r n w c).Errs J.Ok (WArr.Low h₀) := by
  obtain ⟨h1, h2⟩ := hw
  unfold validateArrayValue
  split
  · rename_i x xs hx
    have hv := h.val x n c h₀ P (h1 x (by simp [hx])) hc hn
    cases hr : r.val x n c with
    | ok =>
      dsimp only
      unfold WArr.popFront
      rw [hx]
      dsimp only
      split
      · exact ⟨fun v hv => h1 v (by simp [hx, hv]), by simp⟩
      · rename_i s ss hs
        rw [hs] at h2
        refine ⟨fun v hv => h1 v (by simp [hx, hv]), ?_⟩
        intro t ht v hv
        rcases List.mem_cons.mp ht with rfl | ht
        · rcases List.mem_append.mp hv with hv | hv
          · exact h2 s (by simp) v hv
          · simp only [List.mem_singleton] at hv; subst hv; exact h1 _ (by simp [hx])
        · exact h2 t (by simp [ht]) v hv
    | err e => rw [hr] at hv; exact ⟨hv, h1, h2⟩
    | panic => trivial
    | fuel => trivial
  · exact ⟨trivial, h1, h2⟩

theorem arr_errs {r : Rec} (h : TidyRec J env r) (n : Node) (w : WArr) (c : Ctx) (h₀ : Nat) (P : Site)
    (hw : WArr.Low h₀ w) (hc : Placed J h₀ P c) (hn : n.tidy J P .entry = true) :
    (arrBody env r n w c).Errs J.Ok (WArr.Low h₀) := by
  have dflt := fun m => arrayValue_errs h (n := m) (w := w) hw hc
  cases n <;> simp only [arrBody] <;> simp only [Node.tidy] at hn <;> first
    | exact dflt _ (by simp only [Node.tidy]; try exact hn)
    | exact dflt _ hn
    | skip
  case occur lim n => exact occurLoopS_errs trivial (fun w hw => h.arr _ _ _ _ _ hw hc hn) _ _ _ hw
  case rule s l =>
    rcases lookupRule_tidy hJ hc hn with ⟨n, c', P', hl, hp, ht⟩ | ⟨e, hl, he⟩
    · rw [hl]; exact h.arr _ _ _ _ _ hw hp ht
    · rw [hl]; exact ⟨he, hw⟩
  case unwrap s l =>
    rcases lookupRule_tidy hJ hc hn with ⟨n, c', P', hl, hp, ht⟩ | ⟨e, hl, he⟩
    · rw [hl]
      dsimp only
      unfold validateArrayUnwrap
      split
      · simp only [Node.tidy] at ht
        exact seqLoopS_errs _ _ hw fun m hm w hw => h.arr _ _ _ _ _ hw hp (tidyL_mem ht m hm)
      · exact ⟨trivial, hw⟩
    · rw [hl]; exact ⟨he, hw⟩
  case choice l => exact choiceLoopS_errs trivial _ _ hw fun m hm w hw => h.arr _ _ _ _ _ hw hc (tidyL_mem hn m hm)
  case group l =>
    unfold validateArrayGroup
    have := seqLoopS_errs (E := J.Ok) (f := fun m w => r.arr m w c) l w.snapshot hw.snapshot
      fun m hm w hw => h.arr _ _ _ _ _ hw hc (tidyL_mem hn m hm)
    revert this
    cases seqLoopS (fun m w => r.arr m w c) l w.snapshot with
    | ok w' =>
      rintro ⟨h1, h2⟩
      dsimp only
      unfold WArr.commit
      split
      · trivial
      · rename_i s ss hs
        exact ⟨h1, fun t ht => h2 t (by simp [hs, ht])⟩
    | err e w' =>
      rintro ⟨he, h1, h2⟩
      dsimp only
      unfold WArr.rewind
      split
      · rename_i w'' hw'
        split at hw'
        · cases hw'
        · rename_i s ss hs
          cases hw'
          refine ⟨he, fun v hv => ?_, fun t ht => h2 t (by simp [hs, ht])⟩
          rcases List.mem_append.mp hv with hv | hv
          · exact h2 s (by simp [hs]) v hv
          · exact h1 v hv
      · rename_i hw'
        split
        · trivial
        · rename_i s ss hs
          exact absurd (by rw [hs]) (hw' _)
    | panic => exact fun h => h
    | fuel => exact fun h => h

omit hJ in
theorem mapKeyvalue_errs {r : Rec} (h : TidyRec J env r) {kn vn : Node} {cut : Bool}
    {w : WMap} {c : Ctx} {P : Site} {h₀ : Nat} (hw : WMap.Low h₀ w) (hc : Placed J h₀ P c) (hn : vn.tidy J P .type = true) :
    (validateMapKeyvalue env r kn vn cut w c).Errs J.Ok (WMap.Low h₀) := by
  obtain ⟨h1, h2⟩ := hw
  have hkey : (validateMapKey env r kn w c).Errs J.Ok fun p => p.2.height ≤ h₀ := by
    unfold validateMapKey
    split
    · unfold mapSearchLiteral
      split
      · rename_i v hv
        obtain ⟨k', hk⟩ := VMap.get_pair hv
        exact h1 (k', v) hk
      · trivial
    · unfold mapSearch
      have := mapSearchLoop_errs (E := J.Ok) (f := fun key => r.val key kn c)
        (msg := "map{" ++ kn.display env.fmtF64 ++ "}") trivial w.map
      revert this
      cases mapSearchLoop (fun key => r.val key kn c) ("map{" ++ kn.display env.fmtF64 ++ "}") w.map with
      | ok p => exact fun hp => h1 p hp
      | err e => exact fun h => h
      | panic => exact fun _ => trivial
      | fuel => exact fun _ => trivial
  unfold validateMapKeyvalue
  cases hkk : validateMapKey env r kn w c with
  | ok p =>
    obtain ⟨wk, wv⟩ := p
    rw [hkk] at hkey
    have hv := h.val wv vn c h₀ P hkey hc hn
    dsimp only
    cases hr : r.val wv vn c with
    | ok =>
      dsimp only
      unfold WMap.remove
      split
      · trivial
      · rename_i v' m' hm
        obtain ⟨⟨k', hk⟩, hsub⟩ := VMap.remove_mem hm
        split
        · exact ⟨fun p hp => h1 p (hsub p hp), by simp⟩
        · rename_i s ss hs
          refine ⟨fun p hp => h1 p (hsub p hp), ?_⟩
          intro t ht p hp
          rcases List.mem_cons.mp ht with rfl | ht
          · rcases List.mem_append.mp hp with hp | hp
            · exact h2 s (by simp [hs]) p hp
            · simp only [List.mem_singleton] at hp; subst hp; exact h1 (k', v') hk
          · exact h2 t (by simp [hs, ht]) p hp
    | err e =>
      rw [hr] at hv
      dsimp only
      split
      · exact ⟨trivial, h1, h2⟩
      · exact ⟨hv, h1, h2⟩
    | panic => trivial
    | fuel => trivial
  | err e => rw [hkk] at hkey; exact ⟨hkey, h1, h2⟩
  | panic => trivial
  | fuel => trivial

theorem map_errs {r : Rec} (h : TidyRec J env r) (n : Node) (w : WMap) (c : Ctx) (h₀ : Nat) (P : Site)
    (hw : WMap.Low h₀ w) (hc : Placed J h₀ P c) (hn : n.tidy J P .member = true) :
    (mapBody env r n w c).Errs J.Ok (WMap.Low h₀) := by
  cases n <;> simp only [mapBody] <;> simp only [Node.tidy] at hn <;> try (cases hn; done)
  case occur lim n => exact occurLoopS_errs trivial (fun w hw => h.map _ _ _ _ _ hw hc hn) _ _ _ hw
  case keyValue => exact mapKeyvalue_errs h hw hc (Bool.and_eq_true _ _ ▸ hn).2
  case rule s l =>
    rcases lookupRule_tidy hJ hc hn with ⟨n, c', P', hl, hp, ht⟩ | ⟨e, hl, he⟩
    · rw [hl]; exact h.map _ _ _ _ _ hw hp ht
    · rw [hl]; exact ⟨he, hw⟩
  case unwrap s l =>
    rcases lookupRule_tidy hJ hc hn with ⟨n, c', P', hl, hp, ht⟩ | ⟨e, hl, he⟩
    · rw [hl]
      dsimp only
      unfold validateMapUnwrap
      split
      · simp only [Node.tidy] at ht
        exact seqLoopS_errs _ _ hw fun m hm w hw => h.map _ _ _ _ _ hw hp (tidyL_mem ht m hm)
      · exact ⟨trivial, hw⟩
    · rw [hl]; exact ⟨he, hw⟩
  case choice l => exact choiceLoopS_errs trivial _ _ hw fun m hm w hw => h.map _ _ _ _ _ hw hc (tidyL_mem hn m hm)
  case choiceifyInline l =>
    exact choiceLoopS_errs trivial _ _ hw fun m hm w hw => h.map _ _ _ _ _ hw hc (tidyL_mem hn m hm)
  case choiceify s l => exact h.mchf _ _ _ _ _ _ hw hc hn
  case group l =>
    unfold validateMapGroup
    have := seqLoopS_errs (E := J.Ok) (f := fun m w => r.map m w c) l w.snapshot hw.snapshot
      fun m hm w hw => h.map _ _ _ _ _ hw hc (tidyL_mem hn m hm)
    revert this
    cases seqLoopS (fun m w => r.map m w c) l w.snapshot with
    | ok w' =>
      rintro ⟨h1, h2⟩
      dsimp only
      unfold WMap.commit
      split
      · trivial
      · rename_i s ss hs
        exact ⟨h1, fun t ht => h2 t (by simp [hs, ht])⟩
    | err e w' =>
      rintro ⟨he, h1, h2⟩
      dsimp only
      unfold WMap.rewind
      split
      · rename_i w'' hw'
        split at hw'
        · cases hw'
        · rename_i s ss hs
          cases hw'
          refine ⟨Plan.Ok.erase he, VMap.extend_all (Q := fun v => v.height ≤ h₀) h1 (h2 s (by simp [hs])), fun t ht => h2 t (by simp [hs, ht])⟩
      · rename_i hw'
        split
        · trivial
        · rename_i s ss hs
          exact absurd (by rw [hs]) (hw' _)
    | panic => exact fun h => h
    | fuel => exact fun h => h

theorem step_tidy {r : Rec} (h : TidyRec J env r) : TidyRec J env (step env r) where
  val v n c h₀ P hv hc hn := by
    show (valBody env r v n c).Errs J.Ok _
    cases n <;> simp only [valBody] <;> simp only [Node.tidy] at hn <;> try (cases hn; done)
    case literal =>
      unfold validateLiteral; split <;> trivial
    case prelude => exact validatePreludeType_errs _ _
    case rule => exact ofLookup_errs hJ hc hn fun n c' P' hp ht => h.val _ _ _ _ _ hv hp ht
    case choice l => exact choiceLoop_errs trivial _ fun m hm => h.val _ _ _ _ _ hv hc (tidyL_mem hn m hm)
    case map l =>
      unfold validateMap
      split
      · rename_i m
        cases h₀ with
        | zero => simp [Value.height] at hv
        | succ h₀ =>
        have := seqLoopS_errs (E := J.Ok) (I := WMap.Low h₀) (f := fun m w => r.map m w c) l (WMap.new m)
          ⟨fun p hp => Nat.le_trans (Value.height_memM hp) (by simpa [Value.height, WMap.new] using hv), by simp [WMap.new]⟩
          fun m hm w hw => h.map _ _ _ _ _ hw hc.enter (tidyL_mem hn m hm)
        revert this
        cases seqLoopS (fun m w => r.map m w c) l (WMap.new m) with
        | ok w' =>
          intro _
          dsimp only
          split <;> trivial
        | err e w' => exact fun he => Plan.Ok.erase he.1
        | panic => exact fun _ => trivial
        | fuel => exact fun _ => trivial
      · trivial
    case array l =>
      unfold validateArray
      split
      · rename_i m
        cases h₀ with
        | zero => simp [Value.height] at hv
        | succ h₀ =>
        have := seqLoopS_errs (E := J.Ok) (I := WArr.Low h₀) (f := fun m w => r.arr m w c) l (WArr.new m)
          ⟨fun p hp => Nat.le_trans (Value.height_mem hp) (by simpa [Value.height, WArr.new] using hv), by simp [WArr.new]⟩
          fun m hm w hw => h.arr _ _ _ _ _ hw hc.enter (tidyL_mem hn m hm)
        revert this
        cases seqLoopS (fun m w => r.arr m w c) l (WArr.new m) with
        | ok w' =>
          intro _
          dsimp only
          split <;> trivial
        | err e w' => exact fun h => h.1
        | panic => exact fun _ => trivial
        | fuel => exact fun _ => trivial
      · trivial
    case group l =>
      simp only [Bool.and_eq_true, decide_eq_true_eq] at hn
      match l, hn with
      | [m], hn => exact h.val _ _ _ _ _ hv hc (tidyL_mem hn.2 m (by simp))
    case range =>
      simp only [List.any_eq_true, Bool.and_eq_true] at hn
      obtain ⟨k, _, h1, h2⟩ := hn
      exact (h.deref _ _ _ _ k hc h1).bind fun a ha => Res.Errs.bind (h.deref _ _ _ _ k hc h2) fun b hb =>
        rangeMatch_errs _ _ _ _ _ (ha.trans hb.symm)
    case ctl => exact control_errs h hc hn
    case ctlRegexp =>
      unfold validateControlRegexp
      split
      · split <;> trivial
      · trivial
    case ctlCbor =>
      simp only [Bool.and_eq_true, Bool.or_eq_true, decide_eq_true_eq] at hn
      unfold validateControlCbor
      split
      · split
        · exact hn.1.1
        · rename_i cb _
          cases hcb : cb.toValue with
          | error e =>
            obtain ⟨m, rfl⟩ := Cbor.toValue_valueError cb e hcb
            exact hn.1.1
          | ok v' =>
            refine h.val _ _ _ v'.height _ (Nat.le_refl _) (hc.mono fun P d hr => ?_) hn.2
            rcases hn.1.2 with h' | h'
            · exact .inl h'
            · refine hr.imp id fun hr => ?_
              rw [h'] at hr ⊢
              omega
      · trivial
    case choiceify => exact h.chf _ _ _ _ _ _ hv hc hn
    case choiceifyInline => exact choiceifyMembers_errs h hv hc hn
  chf s l v c h₀ P hv hc hn := by
    show (chfBody env r s l v c).Errs J.Ok _
    refine ofLookup_errs hJ hc hn fun n c' P' hp ht => ?_
    cases n <;> simp only [Node.tidy] at ht <;> try (cases ht; done)
    · exact h.chf _ _ _ _ _ _ hv hp ht
    · exact choiceifyMembers_errs h hv hp ht
  arr := arr_errs hJ h
  map := map_errs hJ h
  mchf s l w c h₀ P hw hc hn := by
    show (mchfBody env r s l w c).Errs J.Ok _
    unfold mchfBody
    rcases lookupRule_tidy hJ hc hn with ⟨n, c', P', hl, hp, ht⟩ | ⟨e, hl, he⟩
    · rw [hl]
      dsimp only
      cases n <;> simp only [Node.tidy] at ht <;> try (cases ht; done)
      · exact h.mchf _ _ _ _ _ _ hw hp ht
      · refine choiceLoopS_errs trivial _ _ hw fun n hn w hw => ?_
        have := tidyL_mem ht n hn
        cases n <;> simp only [mapChoiceifyItem] <;> simp only [Node.tidy] at this <;>
          first
          | (cases this; done)
          | exact h.mchf _ _ _ _ _ _ hw hp this
          | exact h.map _ _ _ _ _ hw hp this
          | exact h.map _ _ _ _ P' hw hp (by simp only [Node.tidy]; try exact this)
    · rw [hl]; exact ⟨he, hw⟩
  deref n c h₀ P k hc hn := by
    show (derefBody env r n c).Errs J.Ok _
    cases n <;> simp only [derefBody] <;> simp only [Node.tidy] at hn <;> try (cases hn; done)
    · simpa [Res.Errs] using hn
    · exact ofLookup_errs hJ hc hn fun n c' P' hp ht => h.deref _ _ _ _ _ hp ht
  chase n c h₀ P u hu hc hn := by
    show (chaseBody env r n c).Errs J.Ok _
    cases u <;> try (cases hu; done)
    all_goals
      cases n <;> simp only [chaseBody] <;> simp only [Node.tidy] at hn <;> try (cases hn; done)
    all_goals first
      | exact ofLookup_errs hJ hc hn fun n c' P' hp ht => h.chase _ _ _ _ _ rfl hp ht
      | skip
    · rename_i l
      cases l <;> simp [Literal.kindOf] at hn
      exact ⟨_, rfl⟩
    · simpa [Purpose.Ends, Res.Errs] using hn
    · exact .inl hn
    · simp only [Bool.and_eq_true] at hn
      exact .inr ⟨_, _, _, rfl, hn⟩
    · simpa [Purpose.Ends, Res.Errs] using hn

theorem fns_tidy : ∀ n, TidyRec J env (fns env n)
  | 0 => TidyRec.bot
  | n + 1 => step_tidy hJ (fns_tidy n)

/-- Errors of validation by a type used as planned. -/
theorem validate_tidy {P : Site} {c : Ctx} (v : Value) (hc : Placed J v.height P c) (n : Node) (hn : n.tidy J P .type = true) :
    ((lim env).val v n c).Errs J.Ok fun _ => True := by
  obtain ⟨N, h⟩ := (lim_ev env).val v n c
  rw [← h N (Nat.le_refl _)]
  exact (fns_tidy hJ N).val v n c _ P (Nat.le_refl _) hc hn

end

end Cddl
