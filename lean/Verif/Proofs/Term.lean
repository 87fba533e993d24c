import Verif.Proofs.Limit
import Verif.Spec.Size

/-! # Termination of the validator -/

namespace Cddl

theorem Node.size_le_sizes {n : Node} {l : List Node} (h : n ∈ l) : n.size ≤ Node.sizes l := by
  induction l with
  | nil => cases h
  | cons x xs ih =>
    simp only [Node.sizes]
    rcases List.mem_cons.mp h with rfl | h
    · omega
    · have := ih h; omega

/-- Contexts the validator can build: the depth counts the scopes and never exceeds the limit. -/
def CtxOK : Ctx → Prop
  | .root d => d = 0
  | .frame _ past d => CtxOK past ∧ d = past.depth + 1 ∧ d ≤ maxDepth

def gsize : List (String × Node) → Nat
  | [] => 0
  | (_, n) :: t => n.size + gsize t

theorem gsize_zip_le : ∀ (ps : List String) (as : List Node), gsize (ps.zip as) ≤ Node.sizes as
  | [], as => by simp [gsize]
  | p :: ps, [] => by simp [gsize]
  | p :: ps, a :: as => by
    have := gsize_zip_le ps as
    simp only [List.zip_cons_cons, gsize, Node.sizes]; omega

theorem gmapFind_size {g : List (String × Node)} {s : String} {n : Node}
    (h : gmapFind g s = some n) : n.size ≤ gsize g := by
  induction g with
  | nil => simp [gmapFind] at h
  | cons p t ih =>
    obtain ⟨q, m⟩ := p
    simp only [gmapFind] at h
    simp only [gsize]
    split at h
    · rename_i x hx
      have := ih (hx.trans h); omega
    · split at h
      · cases h; omega
      · cases h

/-- One number per scope: what the arguments bound there can still unfold to. -/
def ctxVec : Ctx → List Nat
  | .root _ => []
  | .frame g past _ => ctxVec past ++ [1 + gsize g]

theorem ctxVec_length {c : Ctx} (h : CtxOK c) : (ctxVec c).length = c.depth := by
  induction c with
  | root d => simp_all [CtxOK, ctxVec, Ctx.depth]
  | frame g past d ih =>
    obtain ⟨h1, h2, _⟩ := h
    simp [ctxVec, Ctx.depth, ih h1, h2]

theorem ctxOK_depth {c : Ctx} (h : CtxOK c) : c.depth ≤ maxDepth := by
  cases c with
  | root d => simp_all [CtxOK, Ctx.depth]
  | frame g past d => exact h.2.2

/-- Lexicographically ordered vectors of fixed length. -/
def Tower : Nat → Type
  | 0 => Unit
  | k + 1 => Nat × Tower k

def Tower.lt : (k : Nat) → Tower k → Tower k → Prop
  | 0 => fun _ _ => False
  | k + 1 => Prod.Lex (· < ·) (Tower.lt k)

theorem Tower.wf : (k : Nat) → WellFounded (Tower.lt k)
  | 0 => ⟨fun _ => ⟨_, fun _ h => h.elim⟩⟩
  | k + 1 => (Prod.lex ⟨_, Nat.lt_wfRel.wf⟩ ⟨_, Tower.wf k⟩).wf

/-- Pad with zeros. -/
def toTower : (k : Nat) → List Nat → Tower k
  | 0, _ => ()
  | k + 1, [] => ((0, toTower k []) : Nat × Tower k)
  | k + 1, x :: xs => ((x, toTower k xs) : Nat × Tower k)

theorem toTower_lt : ∀ {k : Nat} {p : List Nat} {x y : Nat} {s t : List Nat},
    p.length < k → x < y → Tower.lt k (toTower k (p ++ x :: s)) (toTower k (p ++ y :: t))
  | 0, p, _, _, _, _, h, _ => absurd h (Nat.not_lt_zero _)
  | k + 1, [], x, y, s, t, _, hxy => Prod.Lex.left _ _ hxy
  | k + 1, a :: p, x, y, s, t, h, hxy =>
    Prod.Lex.right _ (toTower_lt (k := k) (p := p) (by simpa using h) hxy)

/-- Length of the vectors. -/
def vlen : Nat := maxDepth + 1

/-- Measure of a query: scope vector, size of the node, and rank of the function. -/
def meas (c : Ctx) (sz rank : Nat) : Tower vlen × Nat := (toTower vlen (ctxVec c ++ [sz]), rank)

def MLt : (Tower vlen × Nat) → (Tower vlen × Nat) → Prop := Prod.Lex (Tower.lt vlen) (· < ·)

theorem MLt.wf : WellFounded MLt := (Prod.lex ⟨_, Tower.wf vlen⟩ ⟨_, Nat.lt_wfRel.wf⟩).wf

theorem MLt.size {c : Ctx} (h : CtxOK c) {a b r r' : Nat} (hab : a < b) :
    MLt (meas c a r) (meas c b r') := by
  refine Prod.Lex.left _ _ (toTower_lt ?_ hab)
  rw [ctxVec_length h]
  exact Nat.lt_succ_of_le (ctxOK_depth h)

theorem MLt.rank {c : Ctx} {a r r' : Nat} (h : r < r') : MLt (meas c a r) (meas c a r') :=
  Prod.Lex.right _ h

theorem Tower.lt_trans : ∀ {k : Nat} {a b c : Tower k}, Tower.lt k a b → Tower.lt k b c → Tower.lt k a c
  | 0, _, _, _, h, _ => h.elim
  | k + 1, _, _, _, .left _ _ h, .left _ _ h' => .left _ _ (Nat.lt_trans h h')
  | k + 1, _, _, _, .left _ _ h, .right _ _ => .left _ _ h
  | k + 1, _, _, _, .right _ _, .left _ _ h' => .left _ _ h'
  | k + 1, _, _, _, .right _ h, .right _ h' => .right _ (Tower.lt_trans h h')

theorem MLt.trans {a b c : Tower vlen × Nat} (h : MLt a b) (h' : MLt b c) : MLt a c := by
  cases h with
  | left _ _ h =>
    cases h' with
    | left _ _ h' => exact .left _ _ (Tower.lt_trans h h')
    | right _ h' => exact .left _ _ h
  | right _ h =>
    cases h' with
    | left _ _ h' => exact .left _ _ h'
    | right _ h' => exact .right _ (Nat.lt_trans h h')

theorem lookupRule_ok {env : Env} {c c' : Ctx} {s : String} {args : List Node} {n : Node}
    (h : c.lookupRule env s args = .ok (n, c')) (hc : CtxOK c) :
    CtxOK c' ∧ ∀ k r r', k ≤ n.size → MLt (meas c' k r) (meas c (2 + Node.sizes args) r') := by
  have key : ∀ (hv : ((env.lookup s).bind fun rd => (c.derive rd args).bind fun c =>
      .ok (rd.node, c)) = Except.ok (n, c')), CtxOK c' ∧
      ∀ k r r', k ≤ n.size → MLt (meas c' k r) (meas c (2 + Node.sizes args) r') := by
    intro hv
    cases hl : env.lookup s with
    | error e => simp [hl, Except.bind] at hv
    | ok rd =>
      simp only [hl, Except.bind] at hv
      unfold Ctx.derive Ctx.incDepth at hv
      split at hv
      · simp at hv
      · rename_i hd
        split at hd
        · simp at hd
        · simp only [Except.bind] at hd
          split at hd
          · simp at hd
          · rename_i d hdd
            split at hdd
            · simp at hdd
            · rename_i hlt
              simp only [Except.ok.injEq, Prod.mk.injEq] at hdd hd hv
              obtain ⟨rfl, rfl⟩ := hv
              subst hd; subst hdd
              refine ⟨⟨hc, rfl, by omega⟩, fun k r r' _ => ?_⟩
              refine Prod.Lex.left _ _ ?_
              simp only [ctxVec, List.append_assoc, List.cons_append, List.nil_append]
              refine toTower_lt ?_ ?_
              · rw [ctxVec_length hc]; exact Nat.lt_succ_of_le (ctxOK_depth hc)
              · have := gsize_zip_le rd.params args; omega
  unfold Ctx.lookupRule at h
  cases c with
  | root d => exact key h
  | frame g past d =>
    dsimp only at h
    split at h
    · rename_i m hm
      simp only [Except.ok.injEq, Prod.mk.injEq] at h
      obtain ⟨rfl, rfl⟩ := h
      refine ⟨hc.1, fun k r r' hk => ?_⟩
      refine Prod.Lex.left _ _ ?_
      simp only [ctxVec, List.append_assoc, List.cons_append, List.nil_append]
      refine toTower_lt ?_ ?_
      · rw [ctxVec_length hc.1]; exact Nat.lt_succ_of_le (ctxOK_depth hc.1)
      · have := gmapFind_size hm; omega
    · exact key h

/-! ## Loops do not run out of budget -/

theorem choiceLoop_nofuel {f : Node → Res Unit} {msg : String} :
    ∀ l : List Node, (∀ n ∈ l, f n ≠ .fuel) → choiceLoop f msg l ≠ .fuel
  | [], _ => by simp [choiceLoop]
  | n :: ns, h => by
    have h1 := h n (by simp)
    have h2 := choiceLoop_nofuel (msg := msg) ns fun m hm => h m (by simp [hm])
    simp only [choiceLoop]
    cases hf : f n with
    | err e => dsimp only; split <;> simp [h2]
    | fuel => exact absurd hf h1
    | _ => simp

theorem choiceLoopS_nofuel {σ : Type} {f : Node → σ → SRes σ} {stop : Err → Bool} {msg : String} :
    ∀ (l : List Node) (w : σ), (∀ n ∈ l, ∀ w, f n w ≠ .fuel) → choiceLoopS f stop msg l w ≠ .fuel
  | [], _, _ => by simp [choiceLoopS]
  | n :: ns, w, h => by
    have h1 := h n (by simp) w
    have h2 := fun w => choiceLoopS_nofuel (stop := stop) (msg := msg) ns w fun m hm =>
      h m (by simp [hm])
    simp only [choiceLoopS]
    cases hf : f n w with
    | err e => dsimp only; split <;> simp [h2]
    | fuel => exact absurd hf h1
    | _ => simp

theorem seqLoopS_nofuel {σ : Type} {f : Node → σ → SRes σ} :
    ∀ (l : List Node) (w : σ), (∀ n ∈ l, ∀ w, f n w ≠ .fuel) → seqLoopS f l w ≠ .fuel
  | [], _, _ => by simp [seqLoopS]
  | n :: ns, w, h => by
    have h1 := h n (by simp) w
    have h2 := fun w => seqLoopS_nofuel ns w fun m hm => h m (by simp [hm])
    simp only [seqLoopS]
    cases hf : f n w with
    | ok w' => exact h2 w'
    | fuel => exact absurd hf h1
    | _ => simp

theorem occurLoopS_nofuel {σ : Type} {f : σ → SRes σ} {lo up : Nat} {msg : String}
    (h : ∀ w, f w ≠ .fuel) :
    ∀ (k c : Nat) (w : σ), 1 ≤ k → up + 1 ≤ c + k → occurLoopS f lo up msg k c w ≠ .fuel
  | 0, _, _, h0, _ => absurd h0 (by omega)
  | k + 1, c, w, _, hk => by
    have h1 := h w
    simp only [occurLoopS]
    cases hf : f w with
    | ok w' =>
      dsimp only
      split
      · split <;> simp
      · exact occurLoopS_nofuel h k (c + 1) w' (by omega) (by omega)
    | err e w' => dsimp only; split <;> (try split) <;> simp
    | fuel => exact absurd hf h1
    | panic => simp

theorem mapSearchLoop_nofuel {f : Value → Res Unit} {msg : String} (h : ∀ v, f v ≠ .fuel) :
    ∀ l, mapSearchLoop f msg l ≠ .fuel
  | [] => by simp [mapSearchLoop]
  | (n, v) :: ns => by
    simp only [mapSearchLoop]
    cases hf : f n with
    | err e => exact mapSearchLoop_nofuel h ns
    | fuel => exact absurd hf (h n)
    | _ => simp

theorem bind_nofuel {α β : Type} {a : Res α} {f : α → Res β} (ha : a ≠ .fuel)
    (hf : ∀ x, a = .ok x → f x ≠ .fuel) : a.bind f ≠ .fuel := by
  cases a with
  | ok x => exact hf x rfl
  | fuel => exact absurd rfl ha
  | _ => simp

theorem ofExcept_nofuel {α : Type} {a : Except Err α} : Res.ofExcept a ≠ .fuel := by
  cases a <;> simp

theorem toU64_nofuel (i : Int) : toU64 i ≠ .fuel := by unfold toU64; split <;> simp

theorem normalizeSizeRange_nofuel (env : Env) (n : Node) : normalizeSizeRange env n ≠ .fuel := by
  unfold normalizeSizeRange
  split
  · exact bind_nofuel (toU64_nofuel _) fun _ _ => by simp
  · refine bind_nofuel (by split <;> simp) fun _ _ => bind_nofuel (by split <;> simp) fun _ _ =>
      bind_nofuel (toU64_nofuel _) fun _ _ => bind_nofuel (toU64_nofuel _) fun _ _ => by simp
  · simp

theorem sizeEndpoints_nofuel (s : String) (z : Node × Node × Bool) : sizeEndpoints s z ≠ .fuel := by
  unfold sizeEndpoints
  split
  · exact bind_nofuel (toU64_nofuel _) fun _ _ => bind_nofuel (toU64_nofuel _) fun _ _ => by simp
  · simp

theorem limitOf_nofuel (env : Env) (s : String) (n : Node) : limitOf env s n ≠ .fuel := by
  unfold limitOf; split <;> simp

theorem shl1_nofuel (s : Nat) : shl1 s ≠ .fuel := by unfold shl1; split <;> simp

theorem validateSizeUint_nofuel (z : Node × Node × Bool) (v : Value) :
    validateSizeUint z v ≠ .fuel := by
  refine bind_nofuel (sizeEndpoints_nofuel _ _) fun x _ => ?_
  dsimp only
  repeat' split
  all_goals first
    | (intro h; cases h; done)
    | (refine bind_nofuel (shl1_nofuel _) fun _ _ => ?_; split <;> simp)

theorem validateSizeTstr_nofuel (z : Node × Node × Bool) (v : Value) :
    validateSizeTstr z v ≠ .fuel := by
  refine bind_nofuel (sizeEndpoints_nofuel _ _) fun x _ => ?_
  dsimp only
  repeat' split
  all_goals simp

theorem validateSizeBstr_nofuel (z : Node × Node × Bool) (v : Value) :
    validateSizeBstr z v ≠ .fuel := by
  refine bind_nofuel (sizeEndpoints_nofuel _ _) fun x _ => ?_
  dsimp only
  repeat' split
  all_goals simp

theorem rangeMatch_nofuel (s : String) (a b : Literal) (v : Value) (i : Bool) :
    rangeMatch s a b v i ≠ .fuel := by
  unfold rangeMatch
  split <;> split <;> simp

theorem validatePreludeType_nofuel (p : PreludeType) (v : Value) :
    validatePreludeType p v ≠ .fuel := by
  cases p <;> cases v <;> simp only [validatePreludeType] <;> (try split) <;> simp

theorem ctlCmp_nofuel (l : Int) (v : Value) :
    validateLtUint l v ≠ .fuel ∧ validateLtNint l v ≠ .fuel ∧ validateLtInt l v ≠ .fuel ∧
    validateLeUint l v ≠ .fuel ∧ validateLeNint l v ≠ .fuel ∧ validateLeInt l v ≠ .fuel ∧
    validateGtUint l v ≠ .fuel ∧ validateGtNint l v ≠ .fuel ∧ validateGtInt l v ≠ .fuel ∧
    validateGeUint l v ≠ .fuel ∧ validateGeNint l v ≠ .fuel ∧ validateGeInt l v ≠ .fuel := by
  cases v <;>
    simp only [validateLtUint, validateLtNint, validateLtInt, validateLeUint, validateLeNint,
      validateLeInt, validateGtUint, validateGtNint, validateGtInt, validateGeUint, validateGeNint,
      validateGeInt] <;>
    refine ⟨?_, ?_, ?_, ?_, ?_, ?_, ?_, ?_, ?_, ?_, ?_, ?_⟩ <;> (repeat' split) <;> simp

/-! ## The main induction -/

/-- A call of one of the recursive functions. -/
inductive Query
  | val (v : Value) (n : Node) (c : Ctx)
  | chf (s : String) (l : List Node) (v : Value) (c : Ctx)
  | arr (n : Node) (w : WArr) (c : Ctx)
  | map (n : Node) (w : WMap) (c : Ctx)
  | mchf (s : String) (l : List Node) (w : WMap) (c : Ctx)
  | deref (n : Node) (c : Ctx)
  | chase (n : Node) (c : Ctx)

def Query.ctx : Query → Ctx
  | .val _ _ c | .chf _ _ _ c | .arr _ _ c | .map _ _ c | .mchf _ _ _ c | .deref _ c | .chase _ c => c

/-- The size that counts. -/
def Query.sz : Query → Nat
  | .val _ n _ | .arr n _ _ | .map n _ _ | .deref n _ | .chase n _ => n.size
  | .chf _ l _ _ | .mchf _ l _ _ => 2 + Node.sizes l

/-- The rank of the function. -/
def Query.rank : Query → Nat
  | .val .. | .map .. => 1
  | .arr .. => 2
  | .chf .. | .mchf .. | .deref .. | .chase .. => 0

def Query.meas (q : Query) : Tower vlen × Nat := Cddl.meas q.ctx q.sz q.rank

/-- The call returns. -/
def Query.Returns (r : Rec) : Query → Prop
  | .val v n c => r.val v n c ≠ .fuel
  | .chf s l v c => r.chf s l v c ≠ .fuel
  | .arr n w c => r.arr n w c ≠ .fuel
  | .map n w c => r.map n w c ≠ .fuel
  | .mchf s l w c => r.mchf s l w c ≠ .fuel
  | .deref n c => r.deref n c ≠ .fuel
  | .chase n c => r.chase n c ≠ .fuel

theorem commitArr_nofuel (w : WArr) : w.commit ≠ .fuel := by unfold WArr.commit; split <;> simp
theorem rewindArr_nofuel (w : WArr) : w.rewind ≠ .fuel := by unfold WArr.rewind; split <;> simp
theorem popArr_nofuel (w : WArr) : w.popFront ≠ .fuel := by
  unfold WArr.popFront; split <;> (try split) <;> simp
theorem commitMap_nofuel (w : WMap) : w.commit ≠ .fuel := by unfold WMap.commit; split <;> simp
theorem rewindMap_nofuel (w : WMap) : w.rewind ≠ .fuel := by unfold WMap.rewind; split <;> simp
theorem removeMap_nofuel (w : WMap) (k : Value) : w.remove k ≠ .fuel := by
  unfold WMap.remove; split <;> (try split) <;> simp

section Step
variable {env : Env} {r : Rec} {c : Ctx}

theorem validateArrayValue_nofuel {n : Node} {w : WArr} (h : ∀ v, r.val v n c ≠ .fuel) :
    validateArrayValue env r n w c ≠ .fuel := by
  unfold validateArrayValue
  split
  · split
    · exact popArr_nofuel _
    · rename_i x _ _ _ _
      have := h x
      revert this
      cases r.val x n c <;> simp
  · simp

theorem choiceifyMembers_nofuel {ms : List Node} {v : Value}
    (h1 : ∀ n, n.size ≤ Node.sizes ms → r.val v n c ≠ .fuel)
    (h2 : ∀ s l, 2 + Node.sizes l ≤ Node.sizes ms → r.chf s l v c ≠ .fuel) :
    validateChoiceifyMembers r ms v c ≠ .fuel := by
  refine choiceLoop_nofuel _ fun n hn => ?_
  have hs := Node.size_le_sizes hn
  cases n <;> simp only [choiceifyItem] <;> try exact h1 _ hs
  case rule s l => exact h2 _ _ (by simpa [Node.size] using hs)
  case keyValue k v cut => exact h1 _ (by simp [Node.size] at hs; omega)

theorem groupArr_nofuel {ms : List Node} {w : WArr} (h : ∀ n ∈ ms, ∀ w, r.arr n w c ≠ .fuel) :
    validateArrayGroup r ms w c ≠ .fuel := by
  unfold validateArrayGroup
  have := seqLoopS_nofuel (f := fun m w => r.arr m w c) ms w.snapshot h
  split
  · exact commitArr_nofuel _
  · split
    · simp
    · exact rewindArr_nofuel _
  · exact this

theorem groupMap_nofuel {ms : List Node} {w : WMap} (h : ∀ n ∈ ms, ∀ w, r.map n w c ≠ .fuel) :
    validateMapGroup r ms w c ≠ .fuel := by
  unfold validateMapGroup
  have := seqLoopS_nofuel (f := fun m w => r.map m w c) ms w.snapshot h
  split
  · exact commitMap_nofuel _
  · split
    · simp
    · exact rewindMap_nofuel _
  · exact this

theorem mapKeyvalue_nofuel {k v : Node} {cut : Bool} {w : WMap} (hk : ∀ x, r.val x k c ≠ .fuel)
    (hv : ∀ x, r.val x v c ≠ .fuel) : validateMapKeyvalue env r k v cut w c ≠ .fuel := by
  have hkey : validateMapKey env r k w c ≠ .fuel := by
    unfold validateMapKey
    split
    · unfold mapSearchLiteral; split <;> simp
    · exact mapSearchLoop_nofuel hk _
  unfold validateMapKeyvalue
  cases hkk : validateMapKey env r k w c with
  | ok p =>
    obtain ⟨k', v'⟩ := p
    dsimp only
    cases hvv : r.val v' v c with
    | ok => exact removeMap_nofuel _ _
    | err e => dsimp only; split <;> simp
    | panic => simp
    | fuel => exact absurd hvv (hv _)
  | err e => simp
  | panic => simp
  | fuel => exact absurd hkk hkey

end Step

/-- How a call may follow another: in the same scope with a smaller node, or with the same node in a function of
lower rank, or by looking up a name. -/
inductive KNext (env : Env) : Ctx → Nat → Nat → Ctx → Nat → Nat → Prop
  | size {c : Ctx} {a b r r' : Nat} : a < b → KNext env c b r c a r'
  | rank {c : Ctx} {a r r' : Nat} : r' < r → KNext env c a r c a r'
  | rule {c c' : Ctx} {s : String} {args : List Node} {n : Node} {k b r r' : Nat} :
      c.lookupRule env s args = .ok (n, c') → 2 + Node.sizes args ≤ b → k ≤ n.size → KNext env c b r c' k r'

theorem KNext.of_lookup {env : Env} {c c' : Ctx} {s : String} {args : List Node} {n : Node}
    (h : c.lookupRule env s args = .ok (n, c')) :
    ∀ k r r', k ≤ n.size → KNext env c (2 + Node.sizes args) r' c' k r :=
  fun _ _ _ hk => .rule h (Nat.le_refl _) hk

theorem KNext.lt {env : Env} {c c' : Ctx} {b r a r' : Nat} (h : KNext env c b r c' a r') (hc : CtxOK c) :
    CtxOK c' ∧ MLt (meas c' a r') (meas c b r) := by
  cases h with
  | size h => exact ⟨hc, .size hc h⟩
  | rank h => exact ⟨hc, .rank h⟩
  | rule hl hb hk =>
    obtain ⟨h1, h2⟩ := lookupRule_ok hl hc
    refine ⟨h1, ?_⟩
    rcases Nat.lt_or_eq_of_le hb with hb | hb
    · exact MLt.trans (h2 _ _ 0 hk) (.size hc hb)
    · exact hb ▸ h2 _ _ _ hk

/-- A call of a body returns if all calls that may follow it do. -/
theorem step_returns (env : Env) (r : Rec) (q : Query)
    (IH : ∀ q' : Query, KNext env q.ctx q.sz q.rank q'.ctx q'.sz q'.rank → q'.Returns r) :
    q.Returns (step env r) := by
  cases q with
  | val v n c =>
    -- smaller nodes in the same scope
    have hval : ∀ x k, Node.size k < n.size → r.val x k c ≠ .fuel := fun x k hk =>
      IH (.val x k c) (.size hk)
    have harr : ∀ k w, Node.size k < n.size → r.arr k w c ≠ .fuel := fun k w hk =>
      IH (.arr k w c) (.size hk)
    have hmap : ∀ k w, Node.size k < n.size → r.map k w c ≠ .fuel := fun k w hk =>
      IH (.map k w c) (.size hk)
    have hchf : ∀ s l, 2 + Node.sizes l < n.size → r.chf s l v c ≠ .fuel := fun s l hk =>
      IH (.chf s l v c) (.size hk)
    have hchase : ∀ k, Node.size k < n.size → r.chase k c ≠ .fuel := fun k hk =>
      IH (.chase k c) (.size hk)
    have hderef : ∀ k, Node.size k < n.size → r.deref k c ≠ .fuel := fun k hk =>
      IH (.deref k c) (.size hk)
    show (step env r).val v n c ≠ .fuel
    show valBody env r v n c ≠ .fuel
    cases n <;> simp only [valBody]
    case literal => unfold validateLiteral; split <;> simp
    case prelude => exact validatePreludeType_nofuel _ _
    case rule s l =>
      refine bind_nofuel ofExcept_nofuel fun a ha => ?_
      obtain ⟨n', c'⟩ := a
      cases hl : c.lookupRule env s l with
      | error e => rw [hl] at ha; simp at ha
      | ok b =>
        rw [hl] at ha; simp at ha; subst ha
        have h2 := KNext.of_lookup hl
        exact IH (.val v n' c') (h2 _ _ _ (Nat.le_refl _))
    case choice l =>
      refine choiceLoop_nofuel _ fun k hk => hval _ _ ?_
      have := Node.size_le_sizes hk; simp only [Node.size]; omega
    case map l =>
      unfold validateMap
      split
      · rename_i xs
        have := seqLoopS_nofuel (f := fun m w => r.map m w c) l (WMap.new xs)
          fun k hk w => hmap k w (by have := Node.size_le_sizes hk; simp only [Node.size]; omega)
        split
        · split <;> simp
        · simp
        · simp
        · rename_i he; exact absurd he this
      · simp
    case array l =>
      unfold validateArray
      split
      · rename_i xs
        have := seqLoopS_nofuel (f := fun m w => r.arr m w c) l (WArr.new xs)
          fun k hk w => harr k w (by have := Node.size_le_sizes hk; simp only [Node.size]; omega)
        split
        · split <;> simp
        · simp
        · simp
        · rename_i he; exact absurd he this
      · simp
    case group l =>
      unfold validateStandaloneGroup
      split
      · exact hval _ _ (by simp only [Node.size, Node.sizes]; omega)
      · simp
    case keyValue => simp
    case occur => simp
    case unwrap => simp
    case range a b i =>
      refine bind_nofuel (hderef _ (by simp only [Node.size]; omega)) fun _ _ =>
        bind_nofuel (hderef _ (by simp only [Node.size]; omega)) fun _ _ => ?_
      exact rangeMatch_nofuel _ _ _ _ _
    case ctl op t arg =>
      have h1 := hchase t (by simp only [Node.size]; omega)
      have h2 := hchase arg (by simp only [Node.size]; omega)
      cases op <;> simp only [validateControl]
      · refine bind_nofuel h2 fun _ _ => bind_nofuel (normalizeSizeRange_nofuel _ _) fun _ _ =>
          bind_nofuel h1 fun _ _ => ?_
        split
        · exact validateSizeUint_nofuel _ _
        · exact validateSizeTstr_nofuel _ _
        · exact validateSizeBstr_nofuel _ _
        · simp
      all_goals
        refine bind_nofuel h2 fun _ _ => bind_nofuel (limitOf_nofuel _ _ _) fun lim _ =>
          bind_nofuel h1 fun _ _ => ?_
        have := ctlCmp_nofuel lim v
        split <;> simp [this]
    case ctlRegexp =>
      unfold validateControlRegexp
      split
      · split <;> simp
      · simp
    case ctlCbor k =>
      unfold validateControlCbor
      split
      · split
        · simp
        · exact bind_nofuel ofExcept_nofuel fun _ _ => hval _ _ (by simp only [Node.size]; omega)
      · simp
    case choiceify s l => exact IH (.chf s l v c) (.rank (by simp [Query.rank]))
    case choiceifyInline l =>
      exact choiceifyMembers_nofuel (fun k hk => hval _ _ (by simp only [Node.size]; omega))
        (fun s l' hk => hchf _ _ (by simp only [Node.size]; omega))
  | chf s l v c =>
    show (step env r).chf s l v c ≠ .fuel
    show chfBody env r s l v c ≠ .fuel
    refine bind_nofuel ofExcept_nofuel fun a ha => ?_
    obtain ⟨n', c'⟩ := a
    cases hl : c.lookupRule env s l with
    | error e => rw [hl] at ha; simp at ha
    | ok b =>
      rw [hl] at ha; simp at ha; subst ha
      have h2 := KNext.of_lookup hl
      dsimp only
      split
      · exact choiceifyMembers_nofuel
          (fun k hk => IH (.val v k c') (h2 _ _ _ (by simp only [Node.size, Query.sz]; omega)))
          (fun s l' hk => IH (.chf s l' v c') (h2 _ _ _ (by simp only [Node.size, Query.sz]; omega)))
      · exact IH (.chf _ _ v c') (h2 _ _ _ (by simp only [Node.size, Query.sz]; omega))
      · simp
  | arr n w c =>
    have harr : ∀ k w, Node.size k < n.size → r.arr k w c ≠ .fuel := fun k w hk =>
      IH (.arr k w c) (.size hk)
    show (step env r).arr n w c ≠ .fuel
    show arrBody env r n w c ≠ .fuel
    have dflt : validateArrayValue env r n w c ≠ .fuel :=
      validateArrayValue_nofuel fun v => IH (.val v n c) (.rank (by simp [Query.rank]))
    cases n <;> simp only [arrBody] <;> try exact dflt
    case occur lim' k =>
      exact occurLoopS_nofuel (fun w => harr k w (by simp only [Node.size]; omega)) _ _ _
        (by omega) (by omega)
    case keyValue k v cut =>
      exact validateArrayValue_nofuel fun x =>
        IH (.val x v c) (.size (by simp only [Query.sz, Node.size]; omega))
    case rule s l =>
      cases hl : c.lookupRule env s l with
      | error e => simp
      | ok a =>
        have h2 := KNext.of_lookup hl
        exact IH (.arr a.1 w a.2) (h2 _ _ _ (Nat.le_refl _))
    case unwrap s l =>
      cases hl : c.lookupRule env s l with
      | error e => simp
      | ok a =>
        have h2 := KNext.of_lookup hl
        dsimp only
        unfold validateArrayUnwrap
        split
        · rename_i ms hms
          refine seqLoopS_nofuel _ _ fun k hk w => IH (.arr k w a.2) (h2 _ _ _ ?_)
          have := Node.size_le_sizes hk
          rw [hms]; simp only [Node.size, Query.sz]; omega
        · simp
    case choice l =>
      refine choiceLoopS_nofuel _ _ fun k hk w => harr _ _ ?_
      have := Node.size_le_sizes hk; simp only [Node.size]; omega
    case group l =>
      refine groupArr_nofuel fun k hk w => harr _ _ ?_
      have := Node.size_le_sizes hk; simp only [Node.size]; omega
  | map n w c =>
    have hmap : ∀ k w, Node.size k < n.size → r.map k w c ≠ .fuel := fun k w hk =>
      IH (.map k w c) (.size hk)
    show (step env r).map n w c ≠ .fuel
    show mapBody env r n w c ≠ .fuel
    cases n <;> simp only [mapBody] <;> try simp
    case occur lim' k =>
      exact occurLoopS_nofuel (fun w => hmap k w (by simp only [Node.size]; omega)) _ _ _
        (by omega) (by omega)
    case keyValue k v cut =>
      exact mapKeyvalue_nofuel
        (fun x => IH (.val x k c) (.size (by simp only [Query.sz, Node.size]; omega)))
        (fun x => IH (.val x v c) (.size (by simp only [Query.sz, Node.size]; omega)))
    case rule s l =>
      cases hl : c.lookupRule env s l with
      | error e => simp
      | ok a =>
        have h2 := KNext.of_lookup hl
        exact IH (.map a.1 w a.2) (h2 _ _ _ (Nat.le_refl _))
    case unwrap s l =>
      cases hl : c.lookupRule env s l with
      | error e => simp
      | ok a =>
        have h2 := KNext.of_lookup hl
        dsimp only
        unfold validateMapUnwrap
        split
        · rename_i ms hms
          refine seqLoopS_nofuel _ _ fun k hk w => IH (.map k w a.2) (h2 _ _ _ ?_)
          have := Node.size_le_sizes hk
          rw [hms]; simp only [Node.size, Query.sz]; omega
        · simp
    case choice l =>
      refine choiceLoopS_nofuel _ _ fun k hk w => hmap _ _ ?_
      have := Node.size_le_sizes hk; simp only [Node.size]; omega
    case choiceifyInline l =>
      refine choiceLoopS_nofuel _ _ fun k hk w => hmap _ _ ?_
      have := Node.size_le_sizes hk; simp only [Node.size]; omega
    case choiceify s l => exact IH (.mchf s l w c) (.rank (by simp [Query.rank]))
    case group l =>
      refine groupMap_nofuel fun k hk w => hmap _ _ ?_
      have := Node.size_le_sizes hk; simp only [Node.size]; omega
  | mchf s l w c =>
    show (step env r).mchf s l w c ≠ .fuel
    show mchfBody env r s l w c ≠ .fuel
    unfold mchfBody
    cases hl : c.lookupRule env s l with
    | error e => simp
    | ok a =>
      obtain ⟨n', c'⟩ := a
      have h2 := KNext.of_lookup hl
      dsimp only
      split
      · rename_i ms
        refine choiceLoopS_nofuel _ _ fun k hk w => ?_
        have hs := Node.size_le_sizes hk
        cases k <;> simp only [mapChoiceifyItem] <;>
          try exact IH (.map _ w c') (h2 _ _ _ (by simp only [Node.size, Query.sz] at *; omega))
        case rule s l => exact IH (.mchf s l w c') (h2 _ _ _ (by simp only [Node.size, Query.sz] at *; omega))
      · exact IH (.mchf _ _ w c') (h2 _ _ _ (by simp only [Node.size, Query.sz]; omega))
      · simp
  | deref n c =>
    show (step env r).deref n c ≠ .fuel
    show derefBody env r n c ≠ .fuel
    cases n <;> simp only [derefBody] <;> try simp
    case rule s l =>
      cases hl : c.lookupRule env s l with
      | error e => simp
      | ok a =>
        have h2 := KNext.of_lookup hl
        exact IH (.deref a.1 a.2) (h2 _ _ _ (Nat.le_refl _))
  | chase n c =>
    show (step env r).chase n c ≠ .fuel
    show chaseBody env r n c ≠ .fuel
    cases n <;> simp only [chaseBody] <;> try simp
    case rule s l =>
      cases hl : c.lookupRule env s l with
      | error e => simp
      | ok a =>
        have h2 := KNext.of_lookup hl
        exact IH (.chase a.1 a.2) (h2 _ _ _ (Nat.le_refl _))

theorem query_returns (env : Env) (q : Query) (hc : CtxOK q.ctx) : q.Returns (lim env) := by
  suffices H : ∀ m (q : Query), q.meas = m → CtxOK q.ctx → q.Returns (lim env) from H _ q rfl hc
  intro m
  induction m using MLt.wf.induction with
  | _ m ih =>
  intro q hq hc
  rw [lim_eq]
  refine step_returns env (lim env) q fun q' h => ?_
  obtain ⟨h1, h2⟩ := h.lt hc
  exact ih _ (hq ▸ h2) q' rfl h1

theorem lim_val_returns (env : Env) (v : Value) (n : Node) {c : Ctx} (hc : CtxOK c) :
    (lim env).val v n c ≠ .fuel := query_returns env (.val v n c) hc

theorem doValidate_returns (env : Env) (v : Value) (rd : RuleDef) :
    doValidate env v rd ≠ .fuel := by
  unfold doValidate
  split
  · simp
  · exact lim_val_returns env v rd.node (c := .root 0) rfl

end Cddl
