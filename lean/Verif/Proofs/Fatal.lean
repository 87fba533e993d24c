import Verif.Proofs.Cong
import Verif.Proofs.Uses
import Verif.Proofs.Safe
import Verif.Spec.Keys

/-! # Fatal errors are not masked (outside map keys) -/

namespace Cddl

set_option linter.unusedSectionVars false

/-- `r` ran out of budget, panicked, is a fatal error, or is `r'`. -/
def RFat {α : Type} (r r' : Res α) : Prop := (r = .fuel ∨ r = .panic) ∨ (∃ e, r = .err e ∧ e.isFatal = true) ∨ r' = r
def SFat {σ : Type} (r r' : SRes σ) : Prop := (r = .fuel ∨ r = .panic) ∨ (∃ e w, r = .err e w ∧ e.isFatal = true) ∨ r' = r

theorem RFat.refl {α : Type} (r : Res α) : RFat r r := .inr (.inr rfl)
theorem SFat.refl {σ : Type} (r : SRes σ) : SFat r r := .inr (.inr rfl)

theorem RFat.bind {α β : Type} {r r' : Res α} {f g : α → Res β} (h : RFat r r')
    (hf : ∀ a, r = .ok a → RFat (f a) (g a)) : RFat (r.bind f) (r'.bind g) := by
  rcases h with (rfl | rfl) | ⟨e, rfl, he⟩ | rfl
  · exact .inl (.inl rfl)
  · exact .inl (.inr rfl)
  · exact .inr (.inl ⟨e, rfl, he⟩)
  · cases r' with
    | ok a => exact hf a rfl
    | _ => exact .refl _

theorem choiceLoop_fat {f g : Node → Res Unit} {msg : String} :
    ∀ {l : List Node}, (∀ n ∈ l, RFat (f n) (g n)) → RFat (choiceLoop f msg l) (choiceLoop g msg l)
  | [], _ => .refl _
  | n :: ns, h => by
    have ih := choiceLoop_fat (msg := msg) fun m hm => h m (List.mem_cons_of_mem _ hm)
    simp only [choiceLoop]
    rcases h n (by simp) with (e | e) | ⟨e, he, hf⟩ | e
    · rw [e]; exact .inl (.inl rfl)
    · rw [e]; exact .inl (.inr rfl)
    · rw [he]; simp only [hf, if_true]; exact .inr (.inl ⟨e, rfl, hf⟩)
    · rw [e]
      cases f n with
      | err e => dsimp only; split <;> first | exact .refl _ | exact ih
      | _ => exact .refl _

theorem choiceLoopS_fat {σ : Type} {f g : Node → σ → SRes σ} {stop : Err → Bool} {msg : String}
    (hs : ∀ e, e.isFatal = true → stop e = true) :
    ∀ {l : List Node} (w : σ), (∀ n ∈ l, ∀ w, SFat (f n w) (g n w)) →
      SFat (choiceLoopS f stop msg l w) (choiceLoopS g stop msg l w)
  | [], _, _ => .refl _
  | n :: ns, w, h => by
    have ih := fun w => choiceLoopS_fat (msg := msg) hs w fun m hm => h m (List.mem_cons_of_mem _ hm)
    simp only [choiceLoopS]
    rcases h n (by simp) w with (e | e) | ⟨e, w', he, hf⟩ | e
    · rw [e]; exact .inl (.inl rfl)
    · rw [e]; exact .inl (.inr rfl)
    · rw [he]; simp only [hs e hf, if_true]; exact .inr (.inl ⟨e, w', rfl, hf⟩)
    · rw [e]
      cases f n w with
      | err e w' => dsimp only; split <;> first | exact .refl _ | exact ih _
      | _ => exact .refl _

theorem seqLoopS_fat {σ : Type} {f g : Node → σ → SRes σ} :
    ∀ {l : List Node} (w : σ), (∀ n ∈ l, ∀ w, SFat (f n w) (g n w)) → SFat (seqLoopS f l w) (seqLoopS g l w)
  | [], _, _ => .refl _
  | n :: ns, w, h => by
    have ih := fun w => seqLoopS_fat (l := ns) w fun m hm => h m (List.mem_cons_of_mem _ hm)
    simp only [seqLoopS]
    rcases h n (by simp) w with (e | e) | ⟨e, w', he, hf⟩ | e
    · rw [e]; exact .inl (.inl rfl)
    · rw [e]; exact .inl (.inr rfl)
    · rw [he]; exact .inr (.inl ⟨e, w', rfl, hf⟩)
    · rw [e]
      cases f n w with
      | ok w' => exact ih _
      | _ => exact .refl _

theorem occurLoopS_fat {σ : Type} {f g : σ → SRes σ} {lo up : Nat} {msg : String} (h : ∀ w, SFat (f w) (g w)) :
    ∀ (k cnt : Nat) (w : σ), SFat (occurLoopS f lo up msg k cnt w) (occurLoopS g lo up msg k cnt w)
  | 0, _, _ => .refl _
  | k + 1, cnt, w => by
    have ih := occurLoopS_fat (lo := lo) (up := up) (msg := msg) h k
    simp only [occurLoopS]
    rcases h w with (e | e) | ⟨e, w', he, hf⟩ | e
    · rw [e]; exact .inl (.inl rfl)
    · rw [e]; exact .inl (.inr rfl)
    · rw [he]
      simp only [isMismatch_fatal hf]
      exact .inr (.inl ⟨e, w', rfl, hf⟩)
    · rw [e]
      cases f w with
      | ok w' => dsimp only; split <;> first | exact .refl _ | exact ih _ _
      | _ => exact .refl _

theorem keysPlainL_mem : ∀ {l : List Node}, Node.KeysPlainL l → ∀ n ∈ l, n.KeysPlain
  | n :: ns, h, m, hm => by
    simp only [Node.KeysPlainL] at h
    rcases List.mem_cons.mp hm with rfl | hm
    · exact h.1
    · exact keysPlainL_mem h.2 m hm

/-- The second environment agrees with the first except where the first reports a fatal error. -/
structure Repairs (env env' : Env) : Prop where
  look : ∀ s, env'.lookup s = env.lookup s ∨ ∃ e, env.lookup s = .error e ∧ e.isFatal = true
  regex : env.regexMatch = env'.regexMatch
  cbor : env.cborDecode = env'.cborDecode
  fmt : env.fmtF64 = env'.fmtF64

theorem namesL_nil : ∀ {l : List Node}, Node.namesL l = [] → ∀ n ∈ l, n.names = []
  | n :: ns, h, m, hm => by
    simp only [Node.namesL, List.append_eq_nil_iff] at h
    rcases List.mem_cons.mp hm with rfl | hm
    · exact h.1
    · exact namesL_nil h.2 m hm

/-- Nodes without names mean the same everywhere. -/
def NoNames : MRel := fun m _ n _ n' => n = n' ∧ n.names = [] ∧ match m with | .chf | .mchf => False | _ => True

theorem noNamesSim {env env' : Env} (h1 : env.regexMatch = env'.regexMatch) (h2 : env.cborDecode = env'.cborDecode)
    (h3 : env.fmtF64 = env'.fmtF64) : Simulation true env env' NoNames := by
  refine ⟨h1, h2, h3, ?_, ?_⟩
  · rintro _ m c n c' n' ⟨rfl, _, _⟩; rfl
  rintro m c n c' n' ⟨rfl, hn, hm⟩
  have all : ∀ (m : Mode) (l : List Node), (match m with | .chf | .mchf => False | _ => True) →
      Node.namesL l = [] → All2 (fun a b => NoNames m c a c' b) l l := by
    intro m l hm hl
    induction l with
    | nil => exact .nil
    | cons a l ih =>
      simp only [Node.namesL, List.append_eq_nil_iff] at hl
      exact .cons ⟨rfl, hl.1, hm⟩ (ih hl.2)
  cases m with
  | chf => exact hm.elim
  | mchf => exact hm.elim
  | deref =>
    cases n <;> first
      | exact .dLiteral _ _ _
      | (simp [Node.names] at hn; done)
      | exact .dOther (by simp) (by simp) (by simp) (by simp)
  | chase =>
    have hl : LeafEq env env' n n :=
      (Cong.refl (ρ := fun _ _ => False) (κ := false) (a := false) (n := n) (by simp [hn])).leaf h3
    cases n <;> first
      | (simp [Node.names] at hn; done)
      | exact .hLeaf (by simp) (by simp) hl
  | val =>
    cases n <;> simp only [Node.names, List.append_eq_nil_iff, reduceCtorEq] at hn
    case literal => exact .vLiteral _ _ _
    case prelude => exact .vPrelude _ _ _
    case ctlRegexp => exact .vRegexp _ _ _
    case choice => exact .vChoice (all .val _ trivial hn)
    case map => exact .vMap (all .map _ trivial hn)
    case array => exact .vArray (all .arr _ trivial hn)
    case group => exact .vGroup (all .val _ trivial hn)
    case choiceifyInline => exact .vInline (all .item _ trivial hn)
    case keyValue => exact .vKeyValue _ _ _ _ _ _ _ _
    case occur => exact .vOccur _ _ _ _ _ _
    case range => exact .vRange _ ⟨rfl, hn.1, trivial⟩ ⟨rfl, hn.2, trivial⟩
    case ctl => exact .vCtl _ ⟨rfl, hn.1, trivial⟩ ⟨rfl, hn.2, trivial⟩
    case ctlCbor => exact .vCbor ⟨rfl, hn, trivial⟩
  | arr =>
    have hv : NoNames .val c n c' n := ⟨rfl, hn, trivial⟩
    cases n <;> first | exact .aPlain rfl rfl hv | skip
    all_goals simp only [Node.names, List.append_eq_nil_iff, reduceCtorEq] at hn
    case choice => exact .aChoice (all .arr _ trivial hn)
    case group => exact .aGroup (all .arr _ trivial hn)
    case keyValue => exact .aKeyValue ⟨rfl, hn.2, trivial⟩
    case occur => exact .aOccur rfl (fun _ => rfl) ⟨rfl, hn, trivial⟩
  | map =>
    cases n <;> simp only [Node.names, List.append_eq_nil_iff, reduceCtorEq] at hn
    case literal => exact .mLiteral _ _ _ _
    case prelude => exact .mPrelude _ _ _ _
    case ctlRegexp => exact .mRegexp _ _ _ _
    case choice => exact .mChoice (all .map _ trivial hn)
    case map => exact .mMap _ _ _ _
    case array => exact .mArray _ _ _ _
    case group => exact .mGroup (all .map _ trivial hn)
    case choiceifyInline => exact .mInline (all .map _ trivial hn)
    case keyValue => exact .mKeyValue _ (fun _ => .rfl) ⟨rfl, hn.1, trivial⟩ ⟨rfl, hn.2, trivial⟩
    case occur => exact .mOccur rfl (fun _ => rfl) ⟨rfl, hn, trivial⟩
    case range => exact .mRange _ _ _ _ _ _ _ _
    case ctl => exact .mCtl _ _ _ _ _ _ _ _
    case ctlCbor => exact .mCbor _ _ _ _
  | item =>
    have hv : NoNames .val c n c' n := ⟨rfl, hn, trivial⟩
    cases n
    case keyValue =>
      simp only [Node.names, List.append_eq_nil_iff, reduceCtorEq] at hn
      exact .iKeyValue ⟨rfl, hn.2, trivial⟩
    case rule => simp [Node.names] at hn
    all_goals exact .iOther (by simp) (by simp) (by simp) (by simp) hv
  | mitem =>
    have hv : NoNames .map c n c' n := ⟨rfl, hn, trivial⟩
    cases n
    case keyValue =>
      simp only [Node.names, List.append_eq_nil_iff, reduceCtorEq] at hn
      exact .jKeyValue ⟨rfl, hn.2, trivial⟩
    case rule => simp [Node.names] at hn
    all_goals exact .jOther (by simp) (by simp) (by simp) (by simp) hv

/-- A name-free node gives the same result in any scope of any environment. -/
theorem noNames_val {env env' : Env} (h1 : env.regexMatch = env'.regexMatch) (h2 : env.cborDecode = env'.cborDecode)
    (h3 : env.fmtF64 = env'.fmtF64) {n : Node} (hn : n.names = []) (c c' : Ctx) (v : Value) (k : Nat) :
    (fns env k).val v n c = .fuel ∨ (lim env').val v n c' = (fns env k).val v n c := by
  have := (fns_sim (noNamesSim h1 h2 h3) k).val c n c' n ⟨rfl, hn, trivial⟩ v
  by_cases hf : (fns env k).val v n c = .fuel
  · exact .inl hf
  · right
    have := this hf
    simpa only [Res.er_true] using this

/-- What is shown about the functions of the first environment. -/
structure FatRec (env' : Env) (r : Rec) : Prop where
  val : ∀ v n c c', c.Shallower c' → n.KeysPlain → RFat (r.val v n c) ((lim env').val v n c')
  arr : ∀ n w c c', c.Shallower c' → n.KeysPlain → SFat (r.arr n w c) ((lim env').arr n w c')
  map : ∀ n w c c', c.Shallower c' → n.KeysPlain → SFat (r.map n w c) ((lim env').map n w c')
  chf : ∀ s as v c c', c.Shallower c' → Node.KeysPlainL as → RFat (r.chf s as v c) ((lim env').chf s as v c')
  mchf : ∀ s as w c c', c.Shallower c' → Node.KeysPlainL as → SFat (r.mchf s as w c) ((lim env').mchf s as w c')
  deref : ∀ n c c', c.Shallower c' → n.KeysPlain → RFat (r.deref n c) ((lim env').deref n c')
  chase : ∀ n c c', c.Shallower c' → n.KeysPlain → RFat (r.chase n c) ((lim env').chase n c')
  key : ∀ v n c c', n.names = [] → r.val v n c = .fuel ∨ (lim env').val v n c' = r.val v n c

/-- Resolving a name. -/
inductive LookFat (env env' : Env) (c c' : Ctx) (s : String) (as : List Node) : Prop
  | fatal {e : Err} : c.lookupRule env s as = .error e → e.isFatal = true → LookFat env env' c c' s as
  | error {e : Err} : c.lookupRule env s as = .error e → c'.lookupRule env' s as = .error e →
      LookFat env env' c c' s as
  | ok {n : Node} {d d' : Ctx} : c.lookupRule env s as = .ok (n, d) → c'.lookupRule env' s as = .ok (n, d') →
      d.Shallower d' → n.KeysPlain → LookFat env env' c c' s as

theorem Ctx.Shallower.depth {c c' : Ctx} (h : c.Shallower c') : c'.depth ≤ c.depth := by
  cases h <;> assumption

theorem Ctx.Shallower.param {c c' : Ctx} (h : c.Shallower c') (s : String) : c'.param s = c.param s := by
  cases h with
  | plain h1 h2 => rw [h1, h2]
  | _ => rfl

theorem gmapFind_mem : ∀ {g : List (String × Node)} {s : String} {n : Node}, gmapFind g s = some n → ∃ t, (t, n) ∈ g
  | (k, a) :: g, s, n, h => by
    simp only [gmapFind] at h
    cases hg : gmapFind g s with
    | some x =>
      rw [hg] at h
      cases h
      obtain ⟨t, ht⟩ := gmapFind_mem hg
      exact ⟨t, List.mem_cons_of_mem _ ht⟩
    | none =>
      rw [hg] at h
      dsimp only at h
      split at h
      · cases h; exact ⟨k, List.mem_cons_self⟩
      · cases h

section
variable {env env' : Env} (E : Repairs env env')
  (hk : ∀ s d, env.lookup s = .ok d → d.node.KeysPlain)
include E hk

theorem look_fat {c c' : Ctx} (hc : c.Shallower c') (s : String) {as : List Node} (ha : Node.KeysPlainL as) :
    LookFat env env' c c' s as := by
  cases hp : c.param s with
  | some a =>
    have hp' := (hc.param s).trans hp
    cases hc with
    | root _ => cases hp
    | plain h1 => rw [h1] at hp; cases hp
    | frame hg hpp _ =>
      simp only [Ctx.param] at hp hp'
      obtain ⟨t, ht⟩ := gmapFind_mem hp
      exact .ok (by simp only [Ctx.lookupRule, hp]) (by simp only [Ctx.lookupRule, hp]) hpp (hg _ ht)
  | none =>
    have e1 := lookupRule_global (env := env) (as := as) hp
    have e2 := lookupRule_global (env := env') (as := as) ((hc.param s).trans hp)
    rcases E.look s with h | ⟨e, h, hf⟩
    · rw [h] at e2
      cases hl : env.lookup s with
      | error e =>
        rw [hl] at e1 e2
        exact .error e1 e2
      | ok d =>
        rw [hl] at e1 e2
        simp only [Except.bind, Ctx.derive] at e1 e2
        by_cases har : d.params.length = as.length
        · rw [if_neg (by simp [har])] at e1 e2
          simp only [Ctx.incDepth] at e1 e2
          have hd := hc.depth
          by_cases hdep : c.depth ≥ maxDepth
          · rw [if_pos hdep] at e1
            exact .fatal e1 rfl
          · rw [if_neg hdep] at e1
            rw [if_neg (by omega)] at e2
            refine .ok e1 e2 (.frame (fun x hx => ?_) hc (by omega)) (hk s d hl)
            exact keysPlainL_mem ha _ (List.of_mem_zip hx).2
        · rw [if_pos (by simpa using har)] at e1
          exact .fatal e1 rfl
    · rw [h] at e1
      exact .fatal e1 hf

variable {r : Rec} (H : FatRec env' r)
include H

theorem look_fat_bind {α : Type} {c c' : Ctx} (hc : c.Shallower c') (s : String) {as : List Node}
    (ha : Node.KeysPlainL as) {f g : Node × Ctx → Res α}
    (h : ∀ n d d', d.Shallower d' → n.KeysPlain → RFat (f (n, d)) (g (n, d'))) :
    RFat ((Res.ofExcept (c.lookupRule env s as)).bind f) ((Res.ofExcept (c'.lookupRule env' s as)).bind g) := by
  cases look_fat E hk hc s ha with
  | fatal h1 h2 => rw [h1]; exact .inr (.inl ⟨_, rfl, h2⟩)
  | error h1 h2 => rw [h1, h2]; exact .refl _
  | ok h1 h2 h3 h4 => rw [h1, h2]; exact h _ _ _ h3 h4

theorem look_fat_match {σ : Type} {c c' : Ctx} (hc : c.Shallower c') (s : String) {as : List Node}
    (ha : Node.KeysPlainL as) (w : σ) {f g : Node × Ctx → SRes σ}
    (h : ∀ n d d', d.Shallower d' → n.KeysPlain → SFat (f (n, d)) (g (n, d'))) :
    SFat (match c.lookupRule env s as with | .ok a => f a | .error e => .err e w)
      (match c'.lookupRule env' s as with | .ok a => g a | .error e => .err e w) := by
  cases look_fat E hk hc s ha with
  | fatal h1 h2 => rw [h1]; exact .inr (.inl ⟨_, _, rfl, h2⟩)
  | error h1 h2 => rw [h1, h2]; exact .refl _
  | ok h1 h2 h3 h4 => rw [h1, h2]; exact h _ _ _ h3 h4

theorem arrayValue_fat {c c' : Ctx} (hc : c.Shallower c') {n : Node} (hn : n.KeysPlain) (w : WArr) :
    SFat (validateArrayValue env r n w c) (validateArrayValue env' (lim env') n w c') := by
  unfold validateArrayValue
  cases w.array with
  | nil => rw [E.fmt]; exact .refl _
  | cons x xs =>
    dsimp only
    rcases H.val x n c c' hc hn with (e | e) | ⟨e, he, hf⟩ | e
    · rw [e]; exact .inl (.inl rfl)
    · rw [e]; exact .inl (.inr rfl)
    · rw [he]; exact .inr (.inl ⟨e, w, rfl, hf⟩)
    · rw [e]; exact .refl _

theorem arr_fat {n : Node} (w : WArr) {c c' : Ctx} (hc : c.Shallower c') (hn : n.KeysPlain) :
    SFat (arrBody env r n w c) ((lim env').arr n w c') := by
  rw [arr_eq]
  have dflt := fun m hm => arrayValue_fat E hk H hc (n := m) hm w
  cases n <;> try exact dflt _ hn
  all_goals simp only [arrBody]
  case occur o n =>
    unfold validateArrayOccur
    rw [E.fmt]
    exact occurLoopS_fat (fun w => H.arr n w _ _ hc (by simpa only [Node.KeysPlain] using hn)) _ _ _
  case keyValue k v y => exact dflt _ hn.2
  case rule s as => exact look_fat_match E hk H hc s hn w fun n d d' h1 h2 => H.arr _ _ _ _ h1 h2
  case unwrap s as =>
    refine look_fat_match E hk H hc s hn w fun n d d' h1 h2 => ?_
    cases n <;> try exact .refl _
    exact seqLoopS_fat _ fun m hm w => H.arr _ _ _ _ h1 (keysPlainL_mem h2 m hm)
  case choice l =>
    exact choiceLoopS_fat (fun _ h => h) _ fun m hm w => H.arr _ _ _ _ hc (keysPlainL_mem hn m hm)
  case group l =>
    unfold validateArrayGroup
    rcases seqLoopS_fat (l := l) w.snapshot (fun m hm w => H.arr m w c c' hc (keysPlainL_mem hn m hm)) with (e | e) | ⟨e, w', he, hf⟩ | e
    · rw [e]; exact .inl (.inl rfl)
    · rw [e]; exact .inl (.inr rfl)
    · rw [he]
      dsimp only
      cases hrw : w'.rewind with
      | ok w'' => exact .inr (.inl ⟨e, w'', rfl, hf⟩)
      | err e2 w2 => unfold WArr.rewind at hrw; split at hrw <;> cases hrw
      | panic => exact .inl (.inr rfl)
      | fuel => unfold WArr.rewind at hrw; split at hrw <;> cases hrw
    · rw [e]; exact .refl _

theorem mapKey_fat {c c' : Ctx} {n : Node} (hn : n.names = []) (w : WMap) :
    RFat (validateMapKey env r n w c) (validateMapKey env' (lim env') n w c') := by
  have search : RFat (mapSearch env r n w c) (mapSearch env' (lim env') n w c') := by
    unfold mapSearch
    rw [E.fmt]
    generalize w.map = l
    induction l with
    | nil => exact .refl _
    | cons p l ih =>
      obtain ⟨k, v⟩ := p
      simp only [mapSearchLoop]
      rcases H.key k n c c' hn with e | e
      · rw [e]; exact .inl (.inl rfl)
      · rw [e]
        cases r.val k n c with
        | err e => exact ih
        | _ => exact .refl _
  cases n <;> try exact search
  simp only [validateMapKey, mapSearchLiteral]
  rw [E.fmt]
  exact .refl _

theorem map_fat {n : Node} (w : WMap) {c c' : Ctx} (hc : c.Shallower c') (hn : n.KeysPlain) :
    SFat (mapBody env r n w c) ((lim env').map n w c') := by
  rw [map_eq]
  have hst : ∀ e : Err, e.isFatal = true → (!e.isMismatch) = true := fun e h => by simp [isMismatch_fatal h]
  cases n <;> try exact .refl _
  all_goals simp only [mapBody]
  case occur o n =>
    unfold validateMapOccur
    rw [E.fmt]
    exact occurLoopS_fat (fun w => H.map n w _ _ hc (by simpa only [Node.KeysPlain] using hn)) _ _ _
  case keyValue k v y =>
    simp only [Node.KeysPlain] at hn
    unfold validateMapKeyvalue
    rcases mapKey_fat E hk H (c := c) (c' := c') hn.1 w with (e | e) | ⟨e, he, hf⟩ | e
    · rw [e]; exact .inl (.inl rfl)
    · rw [e]; exact .inl (.inr rfl)
    · rw [he]; exact .inr (.inl ⟨e, w, rfl, hf⟩)
    · rw [e]
      cases validateMapKey env r k w c with
      | ok p =>
        dsimp only
        rcases H.val p.2 v c c' hc hn.2 with (e | e) | ⟨e, he, hf⟩ | e
        · rw [e]; exact .inl (.inl rfl)
        · rw [e]; exact .inl (.inr rfl)
        · rw [he]
          cases y <;> cases e <;> first | (cases hf; done) | exact .inr (.inl ⟨_, w, rfl, rfl⟩)
        · rw [e]; exact .refl _
      | _ => exact .refl _
  case rule s as => exact look_fat_match E hk H hc s hn w fun n d d' h1 h2 => H.map _ _ _ _ h1 h2
  case unwrap s as =>
    refine look_fat_match E hk H hc s hn w fun n d d' h1 h2 => ?_
    cases n <;> try exact .refl _
    exact seqLoopS_fat _ fun m hm w => H.map _ _ _ _ h1 (keysPlainL_mem h2 m hm)
  case choice l => exact choiceLoopS_fat hst _ fun m hm w => H.map _ _ _ _ hc (keysPlainL_mem hn m hm)
  case choiceifyInline l => exact choiceLoopS_fat hst _ fun m hm w => H.map _ _ _ _ hc (keysPlainL_mem hn m hm)
  case choiceify s as => exact H.mchf _ _ _ _ _ hc hn
  case group l =>
    unfold validateMapGroup
    rcases seqLoopS_fat (l := l) w.snapshot (fun m hm w => H.map m w c c' hc (keysPlainL_mem hn m hm)) with
      (e | e) | ⟨e, w', he, hf⟩ | e
    · rw [e]; exact .inl (.inl rfl)
    · rw [e]; exact .inl (.inr rfl)
    · rw [he]
      dsimp only
      cases hrw : w'.rewind with
      | ok w'' => exact .inr (.inl ⟨e, w'', by rw [eraseMapcut_fatal hf], hf⟩)
      | err e2 w2 => unfold WMap.rewind at hrw; split at hrw <;> cases hrw
      | panic => exact .inl (.inr rfl)
      | fuel => unfold WMap.rewind at hrw; split at hrw <;> cases hrw
    · rw [e]; exact .refl _

theorem members_fat {l : List Node} (v : Value) {c c' : Ctx} (hc : c.Shallower c') (hn : Node.KeysPlainL l) :
    RFat (validateChoiceifyMembers r l v c) (validateChoiceifyMembers (lim env') l v c') := by
  refine choiceLoop_fat fun m hm => ?_
  have hm := keysPlainL_mem hn m hm
  cases m <;> try exact H.val _ _ _ _ hc hm
  case keyValue k w y => exact H.val _ _ _ _ hc hm.2
  case rule s as => exact H.chf _ _ _ _ _ hc hm

theorem mmembers_fat {l : List Node} (w : WMap) {c c' : Ctx} (hc : c.Shallower c') (hn : Node.KeysPlainL l) :
    SFat (validateMapChoiceifyMembers r l w c) (validateMapChoiceifyMembers (lim env') l w c') := by
  refine choiceLoopS_fat (fun e h => by simp [isMismatch_fatal h]) _ fun m hm w => ?_
  have hm := keysPlainL_mem hn m hm
  cases m <;> try exact H.map _ _ _ _ hc hm
  case keyValue k w y => exact H.map _ _ _ _ hc hm.2
  case rule s as => exact H.mchf _ _ _ _ _ hc hm

theorem chf_fat {s : String} {as : List Node} (v : Value) {c c' : Ctx} (hc : c.Shallower c') (hn : Node.KeysPlainL as) :
    RFat (chfBody env r s as v c) ((lim env').chf s as v c') := by
  rw [chf_eq]
  refine look_fat_bind E hk H hc s hn fun n d d' h1 h2 => ?_
  cases n <;> try exact .refl _
  case group l => exact members_fat E hk H v h1 h2
  case rule s' as' => exact H.chf _ _ _ _ _ h1 h2

theorem mchf_fat {s : String} {as : List Node} (w : WMap) {c c' : Ctx} (hc : c.Shallower c') (hn : Node.KeysPlainL as) :
    SFat (mchfBody env r s as w c) ((lim env').mchf s as w c') := by
  rw [mchf_eq]
  refine look_fat_match E hk H hc s hn w fun n d d' h1 h2 => ?_
  cases n <;> try exact .refl _
  case group l => exact mmembers_fat E hk H w h1 h2
  case rule s' as' => exact H.mchf _ _ _ _ _ h1 h2

theorem control_fat {o : CtlOp} {t a : Node} (v : Value) {c c' : Ctx} (hc : c.Shallower c') (ht : t.KeysPlain)
    (ha : a.KeysPlain) : RFat (validateControl env r o t a v c) (validateControl env' (lim env') o t a v c') := by
  have hl : ∀ op n, limitOf env op n = limitOf env' op n := fun op n => by
    cases n <;> simp only [limitOf, E.fmt]
  have hz : ∀ n, normalizeSizeRange env n = normalizeSizeRange env' n := fun n => by
    unfold normalizeSizeRange; rw [E.fmt]
  cases o
  all_goals
    simp only [validateControl, validateControlSize, validateControlLt, validateControlLe, validateControlGt,
      validateControlGe]
    refine (H.chase a c c' hc ha).bind fun an _ => ?_
    simp only [hl, hz, E.fmt]
    refine (RFat.refl _).bind fun x _ => (H.chase t c c' hc ht).bind fun tn _ => .refl _

theorem val_fat {n : Node} (v : Value) {c c' : Ctx} (hc : c.Shallower c') (hn : n.KeysPlain) :
    RFat (valBody env r v n c) ((lim env').val v n c') := by
  rw [val_eq]
  cases n <;> try exact .refl _
  all_goals simp only [valBody]
  case literal l => unfold validateLiteral; rw [E.fmt]; exact .refl _
  case rule s as => exact look_fat_bind E hk H hc s hn fun n d d' h1 h2 => H.val _ _ _ _ h1 h2
  case choice l => exact choiceLoop_fat fun m hm => H.val _ _ _ _ hc (keysPlainL_mem hn m hm)
  case map l =>
    cases v <;> try exact .refl _
    rename_i m
    simp only [validateMap]
    rcases seqLoopS_fat (l := l) (WMap.new m) (fun n hm w => H.map n w c c' hc (keysPlainL_mem hn n hm)) with
      (e | e) | ⟨e, w', he, hf⟩ | e
    · rw [e]; exact .inl (.inl rfl)
    · rw [e]; exact .inl (.inr rfl)
    · rw [he]; exact .inr (.inl ⟨e, by dsimp only; rw [eraseMapcut_fatal hf], hf⟩)
    · rw [e]; exact .refl _
  case array l =>
    cases v <;> try exact .refl _
    rename_i m
    simp only [validateArray]
    rcases seqLoopS_fat (l := l) (WArr.new m) (fun n hm w => H.arr n w c c' hc (keysPlainL_mem hn n hm)) with
      (e | e) | ⟨e, w', he, hf⟩ | e
    · rw [e]; exact .inl (.inl rfl)
    · rw [e]; exact .inl (.inr rfl)
    · rw [he]; exact .inr (.inl ⟨e, rfl, hf⟩)
    · rw [e]; exact .refl _
  case group l =>
    match l, hn with
    | [], _ => exact .refl _
    | [m], hn => exact H.val _ _ _ _ hc (keysPlainL_mem hn m (by simp))
    | _ :: _ :: _, _ => exact .refl _
  case range a b i =>
    simp only [Node.KeysPlain] at hn
    unfold validateRange
    rw [E.fmt]
    exact (H.deref a c c' hc hn.1).bind fun _ _ => (H.deref b c c' hc hn.2).bind fun _ _ => .refl _
  case ctl o t a =>
    simp only [Node.KeysPlain] at hn
    exact control_fat E hk H v hc hn.1 hn.2
  case ctlRegexp p => unfold validateControlRegexp; rw [E.regex]; exact .refl _
  case ctlCbor n =>
    simp only [Node.KeysPlain] at hn
    unfold validateControlCbor
    rw [E.cbor]
    cases v <;> try exact .refl _
    rename_i b
    dsimp only
    cases env'.cborDecode b with
    | error m => exact .refl _
    | ok x => exact (RFat.refl _).bind fun y _ => H.val _ _ _ _ hc hn
  case choiceify s as => exact H.chf _ _ _ _ _ hc hn
  case choiceifyInline l => exact members_fat E hk H v hc hn

theorem deref_fat {n : Node} {c c' : Ctx} (hc : c.Shallower c') (hn : n.KeysPlain) :
    RFat (derefBody env r n c) ((lim env').deref n c') := by
  rw [deref_eq]
  cases n <;> try exact .refl _
  case rule s as => exact look_fat_bind E hk H hc s hn fun n d d' h1 h2 => H.deref _ _ _ h1 h2

theorem chase_fat {n : Node} {c c' : Ctx} (hc : c.Shallower c') (hn : n.KeysPlain) :
    RFat (chaseBody env r n c) ((lim env').chase n c') := by
  rw [chase_eq]
  cases n <;> try exact .refl _
  case rule s as => exact look_fat_bind E hk H hc s hn fun n d d' h1 h2 => H.chase _ _ _ h1 h2
end

theorem fns_fat {env env' : Env} (E : Repairs env env') (hk : ∀ s d, env.lookup s = .ok d → d.node.KeysPlain) :
    ∀ k, FatRec env' (fns env k)
  | 0 => by
    constructor
    all_goals intros
    all_goals exact .inl (by first | exact .inl rfl | rfl)
  | k + 1 => by
    have H := fns_fat E hk k
    exact {
      val := fun v _ _ _ hc hn => val_fat E hk H v hc hn
      arr := fun _ w _ _ hc hn => arr_fat E hk H w hc hn
      map := fun _ w _ _ hc hn => map_fat E hk H w hc hn
      chf := fun _ _ v _ _ hc hn => chf_fat E hk H v hc hn
      mchf := fun _ _ w _ _ hc hn => mchf_fat E hk H w hc hn
      deref := fun _ _ _ hc hn => deref_fat E hk H hc hn
      chase := fun _ _ _ hc hn => chase_fat E hk H hc hn
      key := fun v _ c c' hn => noNames_val E.regex E.cbor E.fmt hn c c' v (k + 1) }

theorem validate_fat {env env' : Env} (E : Repairs env env') (hk : ∀ s d, env.lookup s = .ok d → d.node.KeysPlain)
    {c c' : Ctx} (hc : c.Shallower c') (hok : CtxOK c) {n : Node} (hn : n.KeysPlain) {v : Value} (hv : v.WF) :
    (∃ e, validate env v n c = .err e ∧ e.isFatal = true) ∨ validate env' v n c' = validate env v n c := by
  obtain ⟨k, hk'⟩ := (lim_ev env).val v n c
  have h1 := (fns_fat E hk k).val v n c c' hc hn
  have h2 := hk' k (Nat.le_refl _)
  dsimp only at h2
  rw [h2] at h1
  rcases h1 with (h | h) | h | h
  · exact absurd h (lim_val_returns env v n hok)
  · have := (lim_good (OkErr.triv env)).val v n c hv
    rw [h] at this
    exact this.elim
  · exact .inl h
  · exact .inr h

end Cddl
