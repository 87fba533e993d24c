import Verif.Model.Validate

/-!
# Removing the step budget

`fns env n` is monotone in the budget `n`, and the bodies are continuous, so the limit
`lim env` satisfies `lim env = step env (lim env)`.
-/

namespace Cddl

/-- `a` is `b`, or ran out of budget. -/
def Res.Le {α : Type} (a b : Res α) : Prop := a = .fuel ∨ a = b
/-- `a` is `b`, or ran out of budget. -/
def SRes.Le {σ : Type} (a b : SRes σ) : Prop := a = .fuel ∨ a = b

theorem Res.Le.rfl {α : Type} {a : Res α} : Res.Le a a := .inr (Eq.refl _)
theorem SRes.Le.rfl {σ : Type} {a : SRes σ} : SRes.Le a a := .inr (Eq.refl _)
theorem Res.Le.trans {α : Type} {a b c : Res α} (h : Res.Le a b) (h' : Res.Le b c) : Res.Le a c := by
  rcases h with h | rfl
  · exact .inl h
  · exact h'
theorem SRes.Le.trans {σ : Type} {a b c : SRes σ} (h : SRes.Le a b) (h' : SRes.Le b c) :
    SRes.Le a c := by
  rcases h with h | rfl
  · exact .inl h
  · exact h'

theorem Res.Le.bind {α β : Type} {a b : Res α} {f g : α → Res β} (h : Res.Le a b)
    (h' : ∀ x, Res.Le (f x) (g x)) : Res.Le (a.bind f) (b.bind g) := by
  rcases h with rfl | rfl
  · exact .inl (Eq.refl _)
  · cases a <;> simp [Res.Le.rfl]
    exact h' _

/-- Pointwise `Le`. -/
structure Rec.Le (a b : Rec) : Prop where
  val : ∀ v n c, Res.Le (a.val v n c) (b.val v n c)
  chf : ∀ s l v c, Res.Le (a.chf s l v c) (b.chf s l v c)
  arr : ∀ n w c, SRes.Le (a.arr n w c) (b.arr n w c)
  map : ∀ n w c, SRes.Le (a.map n w c) (b.map n w c)
  mchf : ∀ s l w c, SRes.Le (a.mchf s l w c) (b.mchf s l w c)
  deref : ∀ n c, Res.Le (a.deref n c) (b.deref n c)
  chase : ∀ n c, Res.Le (a.chase n c) (b.chase n c)

theorem choiceLoop_mono {f g : Node → Res Unit} {msg : String} (h : ∀ n, Res.Le (f n) (g n)) :
    ∀ l, Res.Le (choiceLoop f msg l) (choiceLoop g msg l)
  | [] => .rfl
  | n :: ns => by
    simp only [choiceLoop]
    rcases h n with h' | h'
    · rw [h']; exact .inl rfl
    · rw [h']
      cases g n with
      | err e => dsimp only; split; exact .rfl; exact choiceLoop_mono h ns
      | _ => exact .rfl

theorem choiceLoopS_mono {σ : Type} {f g : Node → σ → SRes σ} {stop : Err → Bool} {msg : String}
    (h : ∀ n w, SRes.Le (f n w) (g n w)) :
    ∀ l w, SRes.Le (choiceLoopS f stop msg l w) (choiceLoopS g stop msg l w)
  | [], _ => .rfl
  | n :: ns, w => by
    simp only [choiceLoopS]
    rcases h n w with h' | h'
    · rw [h']; exact .inl rfl
    · rw [h']
      cases g n w with
      | err e => dsimp only; split; exact .rfl; exact choiceLoopS_mono h ns _
      | _ => exact .rfl

theorem seqLoopS_mono {σ : Type} {f g : Node → σ → SRes σ}
    (h : ∀ n w, SRes.Le (f n w) (g n w)) :
    ∀ l w, SRes.Le (seqLoopS f l w) (seqLoopS g l w)
  | [], _ => .rfl
  | n :: ns, w => by
    simp only [seqLoopS]
    rcases h n w with h' | h'
    · rw [h']; exact .inl rfl
    · rw [h']
      cases g n w with
      | ok w' => exact seqLoopS_mono h ns _
      | _ => exact .rfl

theorem occurLoopS_mono {σ : Type} {f g : σ → SRes σ} {lo up : Nat} {msg : String}
    (h : ∀ w, SRes.Le (f w) (g w)) :
    ∀ k c w, SRes.Le (occurLoopS f lo up msg k c w) (occurLoopS g lo up msg k c w)
  | 0, _, _ => .rfl
  | k + 1, c, w => by
    simp only [occurLoopS]
    rcases h w with h' | h'
    · rw [h']; exact .inl rfl
    · rw [h']
      cases g w with
      | ok w' => dsimp only; split; exact .rfl; exact occurLoopS_mono h k _ _
      | _ => exact .rfl

theorem mapSearchLoop_mono {f g : Value → Res Unit} {msg : String} (h : ∀ n, Res.Le (f n) (g n)) :
    ∀ l, Res.Le (mapSearchLoop f msg l) (mapSearchLoop g msg l)
  | [] => .rfl
  | (n, v) :: ns => by
    simp only [mapSearchLoop]
    rcases h n with h' | h'
    · rw [h']; exact .inl rfl
    · rw [h']
      cases g n with
      | err e => exact mapSearchLoop_mono h ns
      | _ => exact .rfl

section Mono
variable {env : Env} {a b : Rec} (h : Rec.Le a b)
include h

theorem choiceifyMembers_mono (l : List Node) (v : Value) (c : Ctx) :
    Res.Le (validateChoiceifyMembers a l v c) (validateChoiceifyMembers b l v c) := by
  apply choiceLoop_mono
  intro n
  cases n <;> simp only [choiceifyItem] <;> first | exact h.val _ _ _ | exact h.chf _ _ _ _

theorem validateArray_mono (ms : List Node) (v : Value) (c : Ctx) :
    Res.Le (validateArray a ms v c) (validateArray b ms v c) := by
  cases v <;> simp only [validateArray] <;> try exact .rfl
  rename_i xs
  rcases seqLoopS_mono (fun n w => h.arr n w c) ms (WArr.new xs) with h' | h'
  · rw [h']; exact .inl rfl
  · rw [h']; exact .rfl

theorem validateMap_mono (ms : List Node) (v : Value) (c : Ctx) :
    Res.Le (validateMap a ms v c) (validateMap b ms v c) := by
  cases v <;> simp only [validateMap] <;> try exact .rfl
  rename_i xs
  rcases seqLoopS_mono (fun n w => h.map n w c) ms (WMap.new xs) with h' | h'
  · rw [h']; exact .inl rfl
  · rw [h']; exact .rfl

theorem valBody_mono (v : Value) (n : Node) (c : Ctx) :
    Res.Le (valBody env a v n c) (valBody env b v n c) := by
  cases n <;> simp only [valBody] <;> try exact .rfl
  case rule => exact Res.Le.bind .rfl fun _ => h.val _ _ _
  case choice => exact choiceLoop_mono (fun n => h.val _ _ _) _
  case map => exact validateMap_mono h _ _ _
  case array => exact validateArray_mono h _ _ _
  case group ms =>
    unfold validateStandaloneGroup
    split
    · exact h.val _ _ _
    · exact .rfl
  case range => exact (h.deref _ _).bind fun _ => (h.deref _ _).bind fun _ => .rfl
  case ctl op t arg =>
    cases op <;> exact (h.chase _ _).bind fun _ => Res.Le.bind .rfl fun _ =>
      (h.chase _ _).bind fun _ => .rfl
  case ctlCbor =>
    unfold validateControlCbor
    split
    · split
      · exact .rfl
      · exact Res.Le.bind .rfl fun _ => h.val _ _ _
    · exact .rfl
  case choiceify => exact h.chf _ _ _ _
  case choiceifyInline => exact choiceifyMembers_mono h _ _ _

theorem chfBody_mono (s : String) (l : List Node) (v : Value) (c : Ctx) :
    Res.Le (chfBody env a s l v c) (chfBody env b s l v c) := by
  refine Res.Le.bind .rfl fun x => ?_
  obtain ⟨n, c⟩ := x
  cases n <;> first | exact .rfl | exact choiceifyMembers_mono h _ _ _ | exact h.chf _ _ _ _

theorem arrayValue_mono (n : Node) (w : WArr) (c : Ctx) :
    SRes.Le (validateArrayValue env a n w c) (validateArrayValue env b n w c) := by
  unfold validateArrayValue
  split
  · rename_i x _ _
    rcases h.val x n c with h' | h'
    · rw [h']; exact .inl rfl
    · rw [h']; exact .rfl
  · exact .rfl

theorem arrBody_mono (n : Node) (w : WArr) (c : Ctx) :
    SRes.Le (arrBody env a n w c) (arrBody env b n w c) := by
  cases n <;> simp only [arrBody] <;> try exact arrayValue_mono h _ _ _
  case occur => exact occurLoopS_mono (fun w => h.arr _ w _) _ _ _
  case rule => split; exact h.arr _ _ _; exact .rfl
  case unwrap =>
    split
    · unfold validateArrayUnwrap
      split
      · exact seqLoopS_mono (fun n w => h.arr n w _) _ _
      · exact .rfl
    · exact .rfl
  case choice => exact choiceLoopS_mono (fun n w => h.arr n w _) _ _
  case group ms =>
    unfold validateArrayGroup
    rcases seqLoopS_mono (fun n w => h.arr n w c) ms w.snapshot with h' | h'
    · rw [h']; exact .inl rfl
    · rw [h']; exact .rfl

theorem mapKeyvalue_mono (k v : Node) (cut : Bool) (w : WMap) (c : Ctx) :
    SRes.Le (validateMapKeyvalue env a k v cut w c) (validateMapKeyvalue env b k v cut w c) := by
  have hk : Res.Le (validateMapKey env a k w c) (validateMapKey env b k w c) := by
    unfold validateMapKey
    split
    · exact .rfl
    · exact mapSearchLoop_mono (fun n => h.val _ _ _) _
  unfold validateMapKeyvalue
  rcases hk with h' | h'
  · rw [h']; exact .inl rfl
  · rw [h']
    cases validateMapKey env b k w c with
    | ok p =>
      obtain ⟨k', v'⟩ := p
      dsimp only
      rcases h.val v' v c with h' | h'
      · rw [h']; exact .inl rfl
      · rw [h']; exact .rfl
    | _ => exact .rfl

theorem mapBody_mono (n : Node) (w : WMap) (c : Ctx) :
    SRes.Le (mapBody env a n w c) (mapBody env b n w c) := by
  cases n <;> simp only [mapBody] <;> try exact .rfl
  case occur => exact occurLoopS_mono (fun w => h.map _ w _) _ _ _
  case keyValue => exact mapKeyvalue_mono h _ _ _ _ _
  case rule => split; exact h.map _ _ _; exact .rfl
  case unwrap =>
    split
    · unfold validateMapUnwrap
      split
      · exact seqLoopS_mono (fun n w => h.map n w _) _ _
      · exact .rfl
    · exact .rfl
  case choice => exact choiceLoopS_mono (fun n w => h.map n w _) _ _
  case choiceifyInline => exact choiceLoopS_mono (fun n w => h.map n w _) _ _
  case choiceify => exact h.mchf _ _ _ _
  case group ms =>
    unfold validateMapGroup
    rcases seqLoopS_mono (fun n w => h.map n w c) ms w.snapshot with h' | h'
    · rw [h']; exact .inl rfl
    · rw [h']; exact .rfl

theorem mchfBody_mono (s : String) (l : List Node) (w : WMap) (c : Ctx) :
    SRes.Le (mchfBody env a s l w c) (mchfBody env b s l w c) := by
  unfold mchfBody
  split
  · split
    · apply choiceLoopS_mono
      intro n w
      cases n <;> simp only [mapChoiceifyItem] <;>
        first | exact h.map _ _ _ | exact h.mchf _ _ _ _
    · exact h.mchf _ _ _ _
    · exact .rfl
  · exact .rfl

theorem step_mono : Rec.Le (step env a) (step env b) where
  val := valBody_mono h
  chf := chfBody_mono h
  arr := arrBody_mono h
  map := mapBody_mono h
  mchf := mchfBody_mono h
  deref n c := by
    cases n <;> simp only [step, derefBody] <;> try exact .rfl
    exact Res.Le.bind .rfl fun _ => h.deref _ _
  chase n c := by
    cases n <;> simp only [step, chaseBody] <;> try exact .rfl
    exact Res.Le.bind .rfl fun _ => h.chase _ _

end Mono

theorem Rec.bot_le (a : Rec) : Rec.Le Rec.bot a :=
  ⟨fun _ _ _ => .inl rfl, fun _ _ _ _ => .inl rfl, fun _ _ _ => .inl rfl, fun _ _ _ => .inl rfl,
   fun _ _ _ _ => .inl rfl, fun _ _ => .inl rfl, fun _ _ => .inl rfl⟩

theorem Rec.Le.refl (a : Rec) : Rec.Le a a :=
  ⟨fun _ _ _ => .rfl, fun _ _ _ _ => .rfl, fun _ _ _ => .rfl, fun _ _ _ => .rfl,
   fun _ _ _ _ => .rfl, fun _ _ => .rfl, fun _ _ => .rfl⟩

theorem Rec.Le.trans {a b c : Rec} (h : Rec.Le a b) (h' : Rec.Le b c) : Rec.Le a c :=
  ⟨fun _ _ _ => (h.val _ _ _).trans (h'.val _ _ _),
   fun _ _ _ _ => (h.chf _ _ _ _).trans (h'.chf _ _ _ _),
   fun _ _ _ => (h.arr _ _ _).trans (h'.arr _ _ _),
   fun _ _ _ => (h.map _ _ _).trans (h'.map _ _ _),
   fun _ _ _ _ => (h.mchf _ _ _ _).trans (h'.mchf _ _ _ _),
   fun _ _ => (h.deref _ _).trans (h'.deref _ _),
   fun _ _ => (h.chase _ _).trans (h'.chase _ _)⟩

theorem fns_le_succ (env : Env) : ∀ n, Rec.Le (fns env n) (fns env (n + 1))
  | 0 => Rec.bot_le _
  | n + 1 => step_mono (fns_le_succ env n)

theorem fns_mono (env : Env) {n m : Nat} (h : n ≤ m) : Rec.Le (fns env n) (fns env m) := by
  induction h with
  | refl => exact .refl _
  | step _ ih => exact ih.trans (fns_le_succ env _)

/-! ## The limit -/

/-- The eventual value of a budgeted computation. -/
noncomputable def limRes {α : Type} (f : Nat → Res α) : Res α :=
  open Classical in if h : ∃ n, f n ≠ .fuel then f h.choose else .fuel
/-- The eventual value of a budgeted computation. -/
noncomputable def limSRes {α : Type} (f : Nat → SRes α) : SRes α :=
  open Classical in if h : ∃ n, f n ≠ .fuel then f h.choose else .fuel

/-- `f` is eventually constantly `a`. -/
def Ev {α : Type} (f : Nat → α) (a : α) : Prop := ∃ N, ∀ n, N ≤ n → f n = a

theorem Ev.const {α : Type} {a : α} : Ev (fun _ => a) a := ⟨0, fun _ _ => rfl⟩

theorem Ev.subst {α β : Type} {f : Nat → α} {a : α} {b : β} (F : Nat → α → β) (h : Ev f a)
    (h' : Ev (fun n => F n a) b) : Ev (fun n => F n (f n)) b := by
  obtain ⟨N, hN⟩ := h
  obtain ⟨M, hM⟩ := h'
  refine ⟨max N M, fun n hn => ?_⟩
  have := hM n (by omega)
  simp only at this ⊢
  rw [hN n (by omega)]
  exact this

/-- Close a goal `Ev (fun k => F (f k)) (F a)` from `Ev f a`. -/
macro "evsub" t:term : tactic => `(tactic| (
  obtain ⟨N, hN⟩ := $t
  refine ⟨N, fun n hn => ?_⟩
  have h := hN n hn
  dsimp only at h ⊢
  rw [h]))

theorem Ev.uniq {α : Type} {f : Nat → α} {a b : α} (h : Ev f a) (h' : Ev f b) : a = b := by
  obtain ⟨N, hN⟩ := h
  obtain ⟨M, hM⟩ := h'
  rw [← hN (max N M) (by omega), hM (max N M) (by omega)]

theorem Ev.succ {α : Type} {f : Nat → α} {a : α} (h : Ev f a) : Ev (fun n => f (n + 1)) a := by
  obtain ⟨N, hN⟩ := h
  exact ⟨N, fun n hn => hN _ (by omega)⟩

theorem limRes_ev {α : Type} {f : Nat → Res α} (h : ∀ n m, n ≤ m → Res.Le (f n) (f m)) :
    Ev f (limRes f) := by
  unfold limRes
  split
  · rename_i hx
    refine ⟨hx.choose, fun n hn => ?_⟩
    rcases h _ _ hn with h' | h'
    · exact absurd h' hx.choose_spec
    · exact h'.symm
  · rename_i hx
    refine ⟨0, fun n _ => ?_⟩
    exact Classical.byContradiction fun hc => hx ⟨n, hc⟩

theorem limSRes_ev {α : Type} {f : Nat → SRes α} (h : ∀ n m, n ≤ m → SRes.Le (f n) (f m)) :
    Ev f (limSRes f) := by
  unfold limSRes
  split
  · rename_i hx
    refine ⟨hx.choose, fun n hn => ?_⟩
    rcases h _ _ hn with h' | h'
    · exact absurd h' hx.choose_spec
    · exact h'.symm
  · rename_i hx
    refine ⟨0, fun n _ => ?_⟩
    exact Classical.byContradiction fun hc => hx ⟨n, hc⟩

/-- The validator without step budget. -/
noncomputable def lim (env : Env) : Rec where
  val v n c := limRes fun k => (fns env k).val v n c
  chf s l v c := limRes fun k => (fns env k).chf s l v c
  arr n w c := limSRes fun k => (fns env k).arr n w c
  map n w c := limSRes fun k => (fns env k).map n w c
  mchf s l w c := limSRes fun k => (fns env k).mchf s l w c
  deref n c := limRes fun k => (fns env k).deref n c
  chase n c := limRes fun k => (fns env k).chase n c

/-- `a n` eventually agrees with `l`, pointwise. -/
structure Rec.Ev (a : Nat → Rec) (l : Rec) : Prop where
  val : ∀ v n c, Cddl.Ev (fun k => (a k).val v n c) (l.val v n c)
  chf : ∀ s as v c, Cddl.Ev (fun k => (a k).chf s as v c) (l.chf s as v c)
  arr : ∀ n w c, Cddl.Ev (fun k => (a k).arr n w c) (l.arr n w c)
  map : ∀ n w c, Cddl.Ev (fun k => (a k).map n w c) (l.map n w c)
  mchf : ∀ s as w c, Cddl.Ev (fun k => (a k).mchf s as w c) (l.mchf s as w c)
  deref : ∀ n c, Cddl.Ev (fun k => (a k).deref n c) (l.deref n c)
  chase : ∀ n c, Cddl.Ev (fun k => (a k).chase n c) (l.chase n c)

theorem lim_ev (env : Env) : Rec.Ev (fns env) (lim env) where
  val v n c := limRes_ev fun _ _ h => (fns_mono env h).val v n c
  chf s l v c := limRes_ev fun _ _ h => (fns_mono env h).chf s l v c
  arr n w c := limSRes_ev fun _ _ h => (fns_mono env h).arr n w c
  map n w c := limSRes_ev fun _ _ h => (fns_mono env h).map n w c
  mchf s l w c := limSRes_ev fun _ _ h => (fns_mono env h).mchf s l w c
  deref n c := limRes_ev fun _ _ h => (fns_mono env h).deref n c
  chase n c := limRes_ev fun _ _ h => (fns_mono env h).chase n c

theorem bind_ev {α β : Type} {f : Nat → Res α} {a : Res α} {k : Nat → α → Res β} {l : α → Res β}
    (h : Ev f a) (h' : ∀ x, Ev (fun n => k n x) (l x)) :
    Ev (fun n => (f n).bind (k n)) (a.bind l) := by
  refine Ev.subst (fun n (r : Res α) => r.bind (k n)) h ?_
  cases a with
  | ok x => exact h' x
  | _ => exact .const

theorem choiceLoop_ev {f : Nat → Node → Res Unit} {g : Node → Res Unit} {msg : String}
    (h : ∀ n, Ev (fun k => f k n) (g n)) :
    ∀ l, Ev (fun k => choiceLoop (f k) msg l) (choiceLoop g msg l)
  | [] => .const
  | n :: ns => by
    refine Ev.subst (fun k r => match r with
      | .ok () => Res.ok ()
      | .err e => if e.isFatal then .err e else choiceLoop (f k) msg ns
      | .panic => .panic
      | .fuel => .fuel) (h n) ?_
    simp only [choiceLoop]
    cases g n with
    | err e =>
      cases he : e.isFatal
      · simpa [he] using choiceLoop_ev h ns
      · simpa [he] using Ev.const
    | _ => exact .const

theorem choiceLoopS_ev {σ : Type} {f : Nat → Node → σ → SRes σ} {g : Node → σ → SRes σ}
    {stop : Err → Bool} {msg : String} (h : ∀ n w, Ev (fun k => f k n w) (g n w)) :
    ∀ l w, Ev (fun k => choiceLoopS (f k) stop msg l w) (choiceLoopS g stop msg l w)
  | [], _ => .const
  | n :: ns, w => by
    refine Ev.subst (fun k r => match r with
      | .ok w' => SRes.ok w'
      | .err e w' => if stop e then .err e w' else choiceLoopS (f k) stop msg ns w'
      | .panic => .panic
      | .fuel => .fuel) (h n w) ?_
    simp only [choiceLoopS]
    cases g n w with
    | err e w' =>
      cases he : stop e
      · simpa [he] using choiceLoopS_ev h ns w'
      · simpa [he] using Ev.const
    | _ => exact .const

theorem seqLoopS_ev {σ : Type} {f : Nat → Node → σ → SRes σ} {g : Node → σ → SRes σ}
    (h : ∀ n w, Ev (fun k => f k n w) (g n w)) :
    ∀ l w, Ev (fun k => seqLoopS (f k) l w) (seqLoopS g l w)
  | [], _ => .const
  | n :: ns, w => by
    refine Ev.subst (fun k r => match r with
      | .ok w' => seqLoopS (f k) ns w'
      | r => r) (h n w) ?_
    simp only [seqLoopS]
    cases g n w with
    | ok w' => exact seqLoopS_ev h ns w'
    | _ => exact .const

theorem occurLoopS_ev {σ : Type} {f : Nat → σ → SRes σ} {g : σ → SRes σ} {lo up : Nat}
    {msg : String} (h : ∀ w, Ev (fun k => f k w) (g w)) :
    ∀ k c w, Ev (fun n => occurLoopS (f n) lo up msg k c w) (occurLoopS g lo up msg k c w)
  | 0, _, _ => .const
  | k + 1, c, w => by
    refine Ev.subst (fun n r => match r with
      | .ok w' =>
        if c + 1 ≥ up then
          if c + 1 < lo then SRes.err (.mismatch msg) w' else .ok w'
        else occurLoopS (f n) lo up msg k (c + 1) w'
      | .err e w' =>
        if e.isMismatch then if c < lo then .err (.mismatch msg) w' else .ok w'
        else .err e w'
      | .panic => .panic
      | .fuel => .fuel) (h w) ?_
    simp only [occurLoopS]
    cases g w with
    | ok w' =>
      dsimp only
      by_cases hc : c + 1 ≥ up
      · simpa only [hc, if_true] using Ev.const
      · simpa only [hc, if_false] using occurLoopS_ev h k (c + 1) w'
    | _ => exact .const

theorem mapSearchLoop_ev {f : Nat → Value → Res Unit} {g : Value → Res Unit} {msg : String}
    (h : ∀ n, Ev (fun k => f k n) (g n)) :
    ∀ l, Ev (fun k => mapSearchLoop (f k) msg l) (mapSearchLoop g msg l)
  | [] => .const
  | (n, v) :: ns => by
    refine Ev.subst (fun k r => match r with
      | .ok () => Res.ok (n, v)
      | .err _ => mapSearchLoop (f k) msg ns
      | .panic => .panic
      | .fuel => .fuel) (h n) ?_
    simp only [mapSearchLoop]
    cases g n with
    | err e => exact mapSearchLoop_ev h ns
    | _ => exact .const

section Cont
variable {env : Env} {a : Nat → Rec} {b : Rec} (h : Rec.Ev a b)
include h

theorem choiceifyMembers_ev (l : List Node) (v : Value) (c : Ctx) :
    Ev (fun k => validateChoiceifyMembers (a k) l v c) (validateChoiceifyMembers b l v c) := by
  apply choiceLoop_ev
  intro n
  cases n <;> simp only [choiceifyItem] <;> first | exact h.val _ _ _ | exact h.chf _ _ _ _

theorem valBody_ev (v : Value) (n : Node) (c : Ctx) :
    Ev (fun k => valBody env (a k) v n c) (valBody env b v n c) := by
  cases n <;> simp only [valBody] <;> try exact .const
  case rule => exact bind_ev .const fun _ => h.val _ _ _
  case choice => exact choiceLoop_ev (fun n => h.val _ _ _) _
  case map ms =>
    cases v <;> simp only [validateMap] <;> try exact .const
    rename_i xs
    evsub (seqLoopS_ev (fun n w => h.map n w c) ms (WMap.new xs))
  case array ms =>
    cases v <;> simp only [validateArray] <;> try exact .const
    rename_i xs
    evsub (seqLoopS_ev (fun n w => h.arr n w c) ms (WArr.new xs))
  case group ms =>
    unfold validateStandaloneGroup
    split
    · exact h.val _ _ _
    · exact .const
  case range => exact bind_ev (h.deref _ _) fun _ => bind_ev (h.deref _ _) fun _ => .const
  case ctl op t arg =>
    cases op <;> exact bind_ev (h.chase _ _) fun _ => bind_ev .const fun _ =>
      bind_ev (h.chase _ _) fun _ => .const
  case ctlCbor =>
    unfold validateControlCbor
    split
    · split
      · exact .const
      · exact bind_ev .const fun _ => h.val _ _ _
    · exact .const
  case choiceify => exact h.chf _ _ _ _
  case choiceifyInline => exact choiceifyMembers_ev h _ _ _

theorem chfBody_ev (s : String) (l : List Node) (v : Value) (c : Ctx) :
    Ev (fun k => chfBody env (a k) s l v c) (chfBody env b s l v c) := by
  refine bind_ev .const fun x => ?_
  obtain ⟨n, c⟩ := x
  cases n <;> first | exact .const | exact choiceifyMembers_ev h _ _ _ | exact h.chf _ _ _ _

theorem arrayValue_ev (n : Node) (w : WArr) (c : Ctx) :
    Ev (fun k => validateArrayValue env (a k) n w c) (validateArrayValue env b n w c) := by
  unfold validateArrayValue
  split
  · evsub (h.val _ n c)
  · exact .const

theorem arrBody_ev (n : Node) (w : WArr) (c : Ctx) :
    Ev (fun k => arrBody env (a k) n w c) (arrBody env b n w c) := by
  cases n <;> simp only [arrBody] <;> try exact arrayValue_ev h _ _ _
  case occur => exact occurLoopS_ev (fun w => h.arr _ w _) _ _ _
  case rule => split; exact h.arr _ _ _; exact .const
  case unwrap =>
    split
    · unfold validateArrayUnwrap
      split
      · exact seqLoopS_ev (fun n w => h.arr n w _) _ _
      · exact .const
    · exact .const
  case choice => exact choiceLoopS_ev (fun n w => h.arr n w _) _ _
  case group ms =>
    unfold validateArrayGroup
    evsub (seqLoopS_ev (fun n w => h.arr n w c) ms w.snapshot)

theorem mapKeyvalue_ev (k v : Node) (cut : Bool) (w : WMap) (c : Ctx) :
    Ev (fun i => validateMapKeyvalue env (a i) k v cut w c) (validateMapKeyvalue env b k v cut w c) := by
  have hk : Ev (fun i => validateMapKey env (a i) k w c) (validateMapKey env b k w c) := by
    unfold validateMapKey
    split
    · exact .const
    · exact mapSearchLoop_ev (fun n => h.val _ _ _) _
  unfold validateMapKeyvalue
  refine Ev.subst (fun i (r : Res (Value × Value)) => match r with
    | .ok (workingKey, workingVal) =>
      match (a i).val workingVal v c with
      | .ok () => w.remove workingKey
      | .err e =>
        match cut, e with
        | true, .mismatch m => .err (.mapCut m) w
        | _, x => .err x w
      | .panic => .panic
      | .fuel => .fuel
    | .err e => .err e w
    | .panic => .panic
    | .fuel => .fuel) hk ?_
  cases validateMapKey env b k w c with
  | ok p =>
    obtain ⟨k', v'⟩ := p
    evsub (h.val v' v c)
    rfl
  | _ => exact .const

theorem mapBody_ev (n : Node) (w : WMap) (c : Ctx) :
    Ev (fun k => mapBody env (a k) n w c) (mapBody env b n w c) := by
  cases n <;> simp only [mapBody] <;> try exact .const
  case occur => exact occurLoopS_ev (fun w => h.map _ w _) _ _ _
  case keyValue => exact mapKeyvalue_ev h _ _ _ _ _
  case rule => split; exact h.map _ _ _; exact .const
  case unwrap =>
    split
    · unfold validateMapUnwrap
      split
      · exact seqLoopS_ev (fun n w => h.map n w _) _ _
      · exact .const
    · exact .const
  case choice => exact choiceLoopS_ev (fun n w => h.map n w _) _ _
  case choiceifyInline => exact choiceLoopS_ev (fun n w => h.map n w _) _ _
  case choiceify => exact h.mchf _ _ _ _
  case group ms =>
    unfold validateMapGroup
    evsub (seqLoopS_ev (fun n w => h.map n w c) ms w.snapshot)

theorem mchfBody_ev (s : String) (l : List Node) (w : WMap) (c : Ctx) :
    Ev (fun k => mchfBody env (a k) s l w c) (mchfBody env b s l w c) := by
  unfold mchfBody
  split
  · split
    · apply choiceLoopS_ev
      intro n w
      cases n <;> simp only [mapChoiceifyItem] <;>
        first | exact h.map _ _ _ | exact h.mchf _ _ _ _
    · exact h.mchf _ _ _ _
    · exact .const
  · exact .const

theorem step_ev : Rec.Ev (fun k => step env (a k)) (step env b) where
  val := valBody_ev h
  chf := chfBody_ev h
  arr := arrBody_ev h
  map := mapBody_ev h
  mchf := mchfBody_ev h
  deref n c := by
    cases n <;> simp only [step, derefBody] <;> try exact .const
    exact bind_ev .const fun _ => h.deref _ _
  chase n c := by
    cases n <;> simp only [step, chaseBody] <;> try exact .const
    exact bind_ev .const fun _ => h.chase _ _

end Cont

/-- The limit satisfies the recursive equations of the code. -/
theorem lim_eq (env : Env) : lim env = step env (lim env) := by
  have h := lim_ev env
  have h' := step_ev (env := env) h
  have e : ∀ (a b : Rec), (∀ v n c, a.val v n c = b.val v n c) →
      (∀ s l v c, a.chf s l v c = b.chf s l v c) → (∀ n w c, a.arr n w c = b.arr n w c) →
      (∀ n w c, a.map n w c = b.map n w c) → (∀ s l w c, a.mchf s l w c = b.mchf s l w c) →
      (∀ n c, a.deref n c = b.deref n c) → (∀ n c, a.chase n c = b.chase n c) → a = b := by
    intro a b h1 h2 h3 h4 h5 h6 h7
    cases a; cases b
    simp only [Rec.mk.injEq]
    refine ⟨?_, ?_, ?_, ?_, ?_, ?_, ?_⟩
    · funext v n c; exact h1 v n c
    · funext s l v c; exact h2 s l v c
    · funext v n c; exact h3 v n c
    · funext v n c; exact h4 v n c
    · funext s l v c; exact h5 s l v c
    · funext n c; exact h6 n c
    · funext n c; exact h7 n c
  apply e
  · intro v n c; exact (h.val v n c).succ.uniq (h'.val v n c)
  · intro s l v c; exact (h.chf s l v c).succ.uniq (h'.chf s l v c)
  · intro v n c; exact (h.arr v n c).succ.uniq (h'.arr v n c)
  · intro v n c; exact (h.map v n c).succ.uniq (h'.map v n c)
  · intro s l v c; exact (h.mchf s l v c).succ.uniq (h'.mchf s l v c)
  · intro n c; exact (h.deref n c).succ.uniq (h'.deref n c)
  · intro n c; exact (h.chase n c).succ.uniq (h'.chase n c)

/-- Any budget that suffices gives the limit. -/
theorem lim_val_of_fns {env : Env} {k : Nat} {v : Value} {n : Node} {c : Ctx} {r : Res Unit}
    (h : (fns env k).val v n c = r) (hr : r ≠ .fuel) : (lim env).val v n c = r := by
  obtain ⟨N, hN⟩ := (lim_ev env).val v n c
  have hN' := hN (max k N) (by omega)
  dsimp only at hN'
  rw [← hN']
  rcases (fns_mono env (Nat.le_max_left k N)).val v n c with h' | h'
  · exact absurd (h ▸ h') hr
  · rw [← h', h]

/-- `do_validate`, /repo/src/validate.rs:141-159. -/
noncomputable def doValidate (env : Env) (v : Value) (rd : RuleDef) : Res Unit :=
  if rd.params ≠ [] then .err .genericError else (lim env).val v rd.node (.root 0)

/-- Evaluating the model with any sufficient budget gives `doValidate`. -/
theorem doValidate_of_fuel {env : Env} {k : Nat} {v : Value} {rd : RuleDef} {r : Res Unit}
    (h : doValidateF env k v rd = r) (hr : r ≠ .fuel) : doValidate env v rd = r := by
  unfold doValidateF at h
  unfold doValidate
  split
  · rename_i hp; rw [if_pos hp] at h; exact h
  · rename_i hp; rw [if_neg hp] at h; exact lim_val_of_fns h hr

/-- `doValidate` is the answer for some budget. -/
theorem doValidate_eq_fuel (env : Env) (v : Value) (rd : RuleDef) :
    ∃ k, doValidate env v rd = doValidateF env k v rd := by
  unfold doValidate doValidateF
  split
  · exact ⟨0, rfl⟩
  · obtain ⟨N, hN⟩ := (lim_ev env).val v rd.node (.root 0)
    exact ⟨N, (hN N (Nat.le_refl _)).symm⟩

end Cddl
