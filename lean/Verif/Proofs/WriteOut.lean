import Verif.Proofs.Fatal
import Verif.Spec.WriteOut

/-! # Written-out rules validate alike -/

namespace Cddl

set_option linter.unusedSectionVars false

/-- `r` is no answer or a fatal error, or `r'` is the same up to the text of mismatches. -/
inductive RLax {α : Type} : Res α → Res α → Prop
  | fuel (r') : RLax .fuel r'
  | panic (r') : RLax .panic r'
  | fatal {e : Err} (r') : e.isFatal = true → RLax (.err e) r'
  | ok (a) : RLax (.ok a) (.ok a)
  | err {e e' : Err} : e'.er false = e.er false → RLax (.err e) (.err e')

inductive SLax {σ : Type} : SRes σ → SRes σ → Prop
  | fuel (r') : SLax .fuel r'
  | panic (r') : SLax .panic r'
  | fatal {e : Err} (w r') : e.isFatal = true → SLax (.err e w) r'
  | ok (a) : SLax (.ok a) (.ok a)
  | err {e e' : Err} (w) : e'.er false = e.er false → SLax (.err e w) (.err e' w)

theorem RLax.refl {α : Type} (r : Res α) : RLax r r := by
  cases r <;> first | exact .ok _ | exact .err rfl | exact .panic _ | exact .fuel _
theorem SLax.refl {σ : Type} (r : SRes σ) : SLax r r := by
  cases r <;> first | exact .ok _ | exact .err _ rfl | exact .panic _ | exact .fuel _
theorem RLax.ofEq {α : Type} {r r' : Res α} (h : r = r') : RLax r r' := h ▸ .refl r
theorem RLax.mismatch {α : Type} (a b : String) : RLax (.err (.mismatch a) : Res α) (.err (.mismatch b)) := .err rfl
theorem SLax.mismatch {σ : Type} (a b : String) (w : σ) : SLax (.err (.mismatch a) w) (.err (.mismatch b) w) := .err _ rfl

theorem RLax.bind {α β : Type} {r r' : Res α} {f g : α → Res β} (h : RLax r r') (hf : ∀ a, RLax (f a) (g a)) :
    RLax (r.bind f) (r'.bind g) := by
  cases h with
  | fuel => exact .fuel _
  | panic => exact .panic _
  | fatal _ h => exact .fatal _ h
  | ok a => exact hf a
  | err h => exact .err h

theorem choiceLoop_lax {f g : Node → Res Unit} {m m' : String} {l l' : List Node}
    (h : All2 (fun n n' => RLax (f n) (g n')) l l') : RLax (choiceLoop f m l) (choiceLoop g m' l') := by
  induction h with
  | nil => exact .mismatch _ _
  | @cons n n' _ _ h _ ih =>
    simp only [choiceLoop]
    generalize f n = r at h
    generalize g n' = r' at h
    cases h with
    | fuel => exact .fuel _
    | panic => exact .panic _
    | fatal _ h => simp only [h, if_true]; exact .fatal _ h
    | ok a => exact .refl _
    | err h =>
      simp only [Err.er_isFatal h]
      split
      · exact .err h
      · exact ih

theorem choiceLoopS_lax {σ : Type} {f g : Node → σ → SRes σ} {stop : Err → Bool} {m m' : String} {l l' : List Node}
    (hf : ∀ e, e.isFatal = true → stop e = true) (hs : ∀ e e' : Err, e'.er false = e.er false → stop e' = stop e)
    (h : All2 (fun n n' => ∀ w, SLax (f n w) (g n' w)) l l') :
    ∀ w, SLax (choiceLoopS f stop m l w) (choiceLoopS g stop m' l' w) := by
  induction h with
  | nil => intro w; exact .mismatch _ _ _
  | @cons n n' _ _ h _ ih =>
    intro w
    simp only [choiceLoopS]
    have h := h w
    generalize f n w = r at h
    generalize g n' w = r' at h
    cases h with
    | fuel => exact .fuel _
    | panic => exact .panic _
    | fatal _ _ h => simp only [hf _ h, if_true]; exact .fatal _ _ h
    | ok a => exact .refl _
    | err w' h =>
      simp only [hs _ _ h]
      split
      · exact .err _ h
      · exact ih w'

theorem seqLoopS_lax {σ : Type} {f g : Node → σ → SRes σ} {l l' : List Node}
    (h : All2 (fun n n' => ∀ w, SLax (f n w) (g n' w)) l l') : ∀ w, SLax (seqLoopS f l w) (seqLoopS g l' w) := by
  induction h with
  | nil => intro w; exact .refl _
  | @cons n n' _ _ h _ ih =>
    intro w
    simp only [seqLoopS]
    have h := h w
    generalize f n w = r at h
    generalize g n' w = r' at h
    cases h with
    | fuel => exact .fuel _
    | panic => exact .panic _
    | fatal _ _ h => exact .fatal _ _ h
    | ok a => exact ih a
    | err w' h => exact .err _ h

theorem occurLoopS_lax {σ : Type} {f g : σ → SRes σ} {lo up : Nat} {m m' : String} (h : ∀ w, SLax (f w) (g w)) :
    ∀ k cnt w, SLax (occurLoopS f lo up m k cnt w) (occurLoopS g lo up m' k cnt w)
  | 0, _, _ => .fuel _
  | k + 1, cnt, w => by
    have ih := occurLoopS_lax (lo := lo) (up := up) (m := m) (m' := m') h k
    simp only [occurLoopS]
    have h := h w
    generalize f w = r at h
    generalize g w = r' at h
    cases h with
    | fuel => exact .fuel _
    | panic => exact .panic _
    | fatal _ _ h => simp only [isMismatch_fatal h]; exact .fatal _ _ h
    | ok a =>
      dsimp only
      split
      · split
        · exact .mismatch _ _ _
        · exact .refl _
      · exact ih _ _
    | err w' h =>
      simp only [Err.er_isMismatch h]
      split
      · split
        · exact .mismatch _ _ _
        · exact .refl _
      · exact .err _ h

/-- A key that means the same on both sides: names lead to a type without names. -/
inductive KeyStands (env : Env) : Ctx → Node → Node → Prop
  | plain {c : Ctx} {k : Node} : k.names = [] → (∀ l, k ≠ .literal l) → KeyStands env c k k
  | step {c p : Ctx} {s : String} {as : List Node} {a k' : Node} : c.lookupRule env s as = .ok (a, p) →
      KeyStands env p a k' → KeyStands env c (.rule s as) k'

/-- In its scope, `n` is what is written out as `n'`. -/
inductive Stands (env : Env) (K : String → NameUse → Prop) : Ctx → Node → Ctx → Node → Prop
  | mk {q : List String} {ps : List (String × Node)} {F : List String} {c c' : Ctx} {n n' : Node}
      (A : String → Node) (P : String → Ctx) :
      (∀ s, s ∉ q → c'.param s = none) → c'.depth ≤ c.depth → (∀ s, argFor ps s = none → c.param s = none) →
      (∀ s a', argFor ps s = some a' → ∀ as, c.lookupRule env s as = .ok (A s, P s)) →
      (∀ s a', argFor ps s = some a' → Stands env K (P s) (A s) c' a') →
      (∀ s ∈ F, ∀ a', argFor ps s = some a' → KeyStands env (P s) (A s) a') →
      WriteOut env K q ps F n n' → Stands env K c n c' n'
  | param {c : Ctx} {n : Node} {g : List (String × Node)} {p : Ctx} {d : Nat} {s : String} {b : Node} (as : List Node) :
      argFor g s = some b → Stands env K c n p b → Stands env K c n (.frame g p d) (.rule s as)

/-- The scopes of a node and of what is written out for it. -/
structure OutScope (env : Env) (K : String → NameUse → Prop) (q : List String) (ps : List (String × Node))
    (F : List String) (c c' : Ctx) : Prop where
  free : ∀ s, s ∉ q → c'.param s = none
  depth : c'.depth ≤ c.depth
  none : ∀ s, argFor ps s = none → c.param s = none
  some : ∃ (A : String → Node) (P : String → Ctx),
    (∀ s a', argFor ps s = some a' → ∀ as, c.lookupRule env s as = .ok (A s, P s)) ∧
    (∀ s a', argFor ps s = some a' → Stands env K (P s) (A s) c' a') ∧
    ∀ s ∈ F, ∀ a', argFor ps s = some a' → KeyStands env (P s) (A s) a'

section
variable {env env' : Env} {K : String → NameUse → Prop} {q : List String} {ps : List (String × Node)}
  {F : List String} {c c' : Ctx}

theorem OutScope.stands (S : OutScope env K q ps F c c') {n n' : Node} (h : WriteOut env K q ps F n n') :
    Stands env K c n c' n' := by
  obtain ⟨A, P, h1, h2, h3⟩ := S.some
  exact .mk A P S.free S.depth S.none h1 h2 h3 h

theorem OutScope.list (S : OutScope env K q ps F c c') :
    ∀ {l l' : List Node}, WriteOutL env K q ps F l l' → All2 (fun n n' => Stands env K c n c' n') l l'
  | [], _, h => by cases h; exact .nil
  | _ :: _, _, h => by cases h with | cons h1 h2 => exact .cons (S.stands h1) (S.list h2)

/-- Entries of a group behind `&`. -/
inductive StandsG (env : Env) (K : String → NameUse → Prop) (c c' : Ctx) : Node → Node → Prop
  | name {q ps F s as as'} : OutScope env K q ps F c c' → argFor ps s = none → s ∉ q → K s .choices →
      WriteOutL env K q ps F as as' → StandsG env K c c' (.rule s as) (.rule s as')
  | keyValue {k v k' v'} (x) : Stands env K c v c' v' → StandsG env K c c' (.keyValue k v x) (.keyValue k' v' x)
  | other {n n'} : (∀ s as, n ≠ .rule s as) → (∀ k v y, n ≠ .keyValue k v y) →
      (∀ s as, n' ≠ .rule s as) → (∀ k v y, n' ≠ .keyValue k v y) → Stands env K c n c' n' → StandsG env K c c' n n'

theorem OutScope.groupAll (S : OutScope env K q ps F c c') :
    ∀ {l l' : List Node}, WriteOutG env K q ps F l l' → All2 (StandsG env K c c') l l'
  | [], _, h => by cases h; exact .nil
  | _ :: _, _, h => by
    cases h with
    | name h1 h2 h3 h4 h5 => exact .cons (.name S h1 h2 h3 h4) (S.groupAll h5)
    | other h1 h2 h3 =>
      refine .cons ?_ (S.groupAll h3)
      cases h2
      case param => exact absurd rfl (h1 _ _)
      case name => exact absurd rfl (h1 _ _)
      case body => exact absurd rfl (h1 _ _)
      case keyValue h4 h5 => exact .keyValue _ (S.stands h5)
      all_goals
        refine .other (by simp) (by simp) (by simp) (by simp) (S.stands ?_)
      case literal => exact .literal _ _ _
      case prelude => exact .prelude _ _ _
      case regexp => exact .regexp _ _ _
      case choice h => exact .choice h
      case map h => exact .map h
      case array h => exact .array h
      case group h => exact .group h
      case occur h => exact .occur _ h
      case unwrap => exact .unwrap ‹_› ‹_› ‹_› ‹_›
      case range a b => exact .range _ a b
      case ctl a b => exact .ctl _ a b
      case cbor h => exact .cbor h
      case choiceify => exact .choiceify ‹_› ‹_› ‹_› ‹_›
      case inline h => exact .inline h

theorem OutScope.groupL : ∀ {l l' : List Node}, WriteOutG env K q ps F l l' → WriteOutL env K q ps F l l'
  | [], _, h => by cases h; exact .nil _ _
  | _ :: _, _, h => by
    cases h with
    | name h1 h2 h3 h4 h5 => exact .cons (.name _ h1 h2 h3 h4) (OutScope.groupL h5)
    | other h1 h2 h3 => exact .cons h2 (OutScope.groupL h3)

theorem gmapFind_argFor : ∀ (g : List (String × Node)) (s : String), gmapFind g s = argFor g s
  | [], _ => rfl
  | (t, a) :: g, s => by simp only [gmapFind, argFor, gmapFind_argFor g s]; rfl

theorem Ctx.param_frame (g : List (String × Node)) (p : Ctx) (d : Nat) (s : String) :
    (Ctx.frame g p d).param s = argFor g s := gmapFind_argFor g s

theorem argFor_zip2 {R : Node → Node → Prop} : ∀ {ss : List String} {l l' : List Node}, All2 R l l' →
    (∀ s, argFor (ss.zip l') s = none → argFor (ss.zip l) s = none) ∧
    (∀ s a', argFor (ss.zip l') s = some a' → ∃ a, argFor (ss.zip l) s = some a ∧ R a a')
  | [], _, _, _ => ⟨fun _ _ => rfl, fun _ _ h => by simp [argFor] at h⟩
  | _ :: _, _, _, .nil => ⟨fun _ _ => rfl, fun _ _ h => by simp [argFor] at h⟩
  | t :: ss, a :: l, a' :: l', .cons h hl => by
    obtain ⟨h1, h2⟩ := argFor_zip2 (ss := ss) hl
    constructor
    · intro s hs
      simp only [List.zip_cons_cons, argFor] at hs ⊢
      cases hg : argFor (ss.zip l') s with
      | some x => rw [hg] at hs; cases hs
      | none =>
        rw [hg] at hs
        rw [h1 s hg]
        dsimp only at hs ⊢
        split at hs
        · cases hs
        · rw [if_neg ‹_›]
    · intro s b hs
      simp only [List.zip_cons_cons, argFor] at hs ⊢
      cases hg : argFor (ss.zip l') s with
      | some x =>
        rw [hg] at hs
        cases hs
        obtain ⟨a, ha, hr⟩ := h2 s _ hg
        exact ⟨a, by rw [ha], hr⟩
      | none =>
        rw [hg] at hs
        rw [h1 s hg]
        dsimp only at hs ⊢
        split at hs
        · rw [if_pos ‹_›]; cases hs; exact ⟨_, rfl, h⟩
        · cases hs

theorem argFor_self : ∀ (q : List String) (s : String),
    (s ∈ q → argFor (selfParams q) s = some (.rule s [])) ∧ (s ∉ q → argFor (selfParams q) s = none)
  | [], _ => ⟨fun h => by simp at h, fun _ => rfl⟩
  | t :: q, s => by
    obtain ⟨h1, h2⟩ := argFor_self q s
    simp only [selfParams, List.map_cons, argFor] at h1 h2 ⊢
    by_cases hs : s ∈ q
    · rw [h1 hs]
      exact ⟨fun _ => rfl, fun h => absurd (List.mem_cons_of_mem _ hs) h⟩
    · rw [h2 hs]
      dsimp only
      constructor
      · intro h
        rcases List.mem_cons.mp h with rfl | h
        · rw [if_pos rfl]
        · exact absurd h hs
      · intro h
        rw [if_neg fun e => h (by rw [e]; exact List.mem_cons_self)]

theorem argFor_zip_mem : ∀ {q : List String} {l : List Node} (s : String), q.length = l.length →
    (s ∈ q → ∃ a, argFor (q.zip l) s = some a) ∧ (s ∉ q → argFor (q.zip l) s = none)
  | [], _, _, _ => ⟨fun h => by simp at h, fun _ => rfl⟩
  | t :: q, [], _, h => by simp at h
  | t :: q, a :: l, s, h => by
    obtain ⟨h1, h2⟩ := argFor_zip_mem (q := q) (l := l) s (by simpa using h)
    simp only [List.zip_cons_cons, argFor]
    by_cases hs : s ∈ q
    · obtain ⟨a, ha⟩ := h1 hs
      rw [ha]
      exact ⟨fun _ => ⟨_, rfl⟩, fun h => absurd (List.mem_cons_of_mem _ hs) h⟩
    · rw [h2 hs]
      dsimp only
      constructor
      · intro h
        rcases List.mem_cons.mp h with rfl | h
        · rw [if_pos rfl]; exact ⟨_, rfl⟩
        · exact absurd h hs
      · intro h
        rw [if_neg fun e => h (by rw [e]; exact List.mem_cons_self)]

/-- How names are resolved on both sides. -/
inductive LookLax (env env' : Env) (P : Ctx → Node → Ctx → Node → Prop) (c : Ctx) (s : String) (as : List Node)
    (c' : Ctx) (s' : String) (as' : List Node) : Prop
  | fatal {e : Err} : c.lookupRule env s as = .error e → e.isFatal = true → LookLax env env' P c s as c' s' as'
  | error {e : Err} : c.lookupRule env s as = .error e → c'.lookupRule env' s' as' = .error e →
      LookLax env env' P c s as c' s' as'
  | ok {n n' : Node} {d d' : Ctx} : c.lookupRule env s as = .ok (n, d) → c'.lookupRule env' s' as' = .ok (n', d') →
      P d n d' n' → LookLax env env' P c s as c' s' as'

/-- A global name, resolved. -/
theorem lookup_derive {c : Ctx} {s : String} {as : List Node} {d : RuleDef} (hp : c.param s = none)
    (hl : env.lookup s = .ok d) :
    c.lookupRule env s as =
      if d.params.length = as.length then
        if c.depth ≥ maxDepth then .error (.structural "hit recursion limit")
        else .ok (d.node, .frame (d.params.zip as) c (c.depth + 1))
      else .error .genericError := by
  rw [lookupRule_global hp, hl]
  simp only [Except.bind, Ctx.derive, Ctx.incDepth]
  by_cases h1 : d.params.length = as.length
  · by_cases h2 : c.depth ≥ maxDepth <;>
      simp only [h1, h2, ne_eq, not_true_eq_false, if_false, if_true]
  · simp only [ne_eq, h1, not_false_eq_true, if_true, if_false]

/-- What a kept name leads to. -/
def BothBodies (env : Env) (K : String → NameUse → Prop) (u : NameUse) (d : Ctx) (n : Node) (d' : Ctx) (n' : Node) : Prop :=
  ∃ q, OutScope env K q (selfParams q) [] d d' ∧ WriteOut env K q (selfParams q) [] n n' ∧ UseFits env K q n n' u

theorem look_kept (W : WrittenOut env env' K) (S : OutScope env K q ps F c c') {s : String} {as as' : List Node}
    {u : NameUse} (hp : argFor ps s = none) (hq : s ∉ q) (hK : K s u) (ha : WriteOutL env K q ps F as as') :
    LookLax env env' (BothBodies env K u) c s as c' s as' := by
  have hl := (S.list ha).length
  have hA := S.list ha
  rcases W.rules s u hK with ⟨e, h1, h2⟩ | ⟨d, d', h1, h2, h3, h4, h5⟩
  · refine .error (e := e) ?_ ?_
    · rw [lookupRule_global (S.none s hp), h1]; rfl
    · rw [lookupRule_global (S.free s hq), h2]; rfl
  · have e1 := lookup_derive (as := as) (S.none s hp) h1
    have e2 := lookup_derive (as := as') (S.free s hq) h2
    rw [h3, ← hl] at e2
    by_cases hn : d.params.length = as.length
    · rw [if_pos hn] at e1 e2
      by_cases hd : c.depth ≥ maxDepth
      · rw [if_pos hd] at e1
        exact .fatal e1 rfl
      · have hdd := S.depth
        have hd' : ¬ c'.depth ≥ maxDepth := by omega
        rw [if_neg hd] at e1
        rw [if_neg hd'] at e2
        refine .ok e1 e2 ⟨d.params, ⟨?_, ?_, ?_, ?_⟩, h4, h5⟩
        · intro t ht
          rw [Ctx.param_frame]; exact (argFor_zip_mem t (hn.trans hl)).2 ht
        · show c'.depth + 1 ≤ c.depth + 1
          omega
        · intro t ht
          have : t ∉ d.params := fun h => by rw [(argFor_self _ t).1 h] at ht; cases ht
          rw [Ctx.param_frame]; exact (argFor_zip_mem t hn).2 this
        · obtain ⟨g1, g2⟩ := argFor_zip2 (ss := d.params) hA
          have key : ∀ t a', argFor (selfParams d.params) t = some a' → a' = .rule t [] ∧
              ∃ a b, argFor (d.params.zip as) t = some a ∧ argFor (d.params.zip as') t = some b ∧
                Stands env K c a c' b := by
            intro t a' ht
            have hm : t ∈ d.params := by
              apply Classical.byContradiction
              intro h
              rw [(argFor_self _ t).2 h] at ht
              cases ht
            rw [(argFor_self _ t).1 hm] at ht
            cases ht
            obtain ⟨b, hb⟩ := (argFor_zip_mem t (hn.trans hl)).1 hm
            obtain ⟨a, ha', hst⟩ := g2 t b hb
            exact ⟨rfl, a, b, ha', hb, hst⟩
          refine ⟨fun t => (argFor (d.params.zip as) t).getD (.group []), fun _ => c, ?_, ?_, ?_⟩
          · intro t a' ht xs
            obtain ⟨_, a, b, h6, h7, h8⟩ := key t a' ht
            simp only [Ctx.lookupRule, gmapFind_argFor, h6, Option.getD_some]
          · intro t a' ht
            obtain ⟨rfl, a, b, h6, h7, h8⟩ := key t a' ht
            simp only [h6, Option.getD_some]
            exact .param _ h7 h8
          · intro t ht; simp at ht
    · rw [if_neg hn] at e1
      exact .fatal e1 rfl

/-- How the name of a rule or parameter is resolved, and what is written for it. -/
inductive LookOut (env env' : Env) (K : String → NameUse → Prop) (c : Ctx) (s : String) (as : List Node)
    (c' : Ctx) (n' : Node) : Prop
  | fatal {e : Err} : c.lookupRule env s as = .error e → e.isFatal = true → LookOut env env' K c s as c' n'
  | out {m : Node} {d : Ctx} : c.lookupRule env s as = .ok (m, d) → Stands env K d m c' n' → LookOut env env' K c s as c' n'
  | error {s' : String} {as' : List Node} {e : Err} : n' = .rule s' as' → c.lookupRule env s as = .error e →
      c'.lookupRule env' s' as' = .error e → LookOut env env' K c s as c' n'
  | kept {s' : String} {as' : List Node} {m m' : Node} {d d' : Ctx} : n' = .rule s' as' →
      c.lookupRule env s as = .ok (m, d) → c'.lookupRule env' s' as' = .ok (m', d') →
      Stands env K d m d' m' → LookOut env env' K c s as c' n'

theorem OutScope.keyOut (S : OutScope env K q ps F c c') {a a' : Node} (h : KeyArg ps F a a') : KeyStands env c a a' := by
  rcases h with ⟨h1, rfl, h2⟩ | ⟨s, as, rfl, h1, h2⟩
  · exact .plain h1 h2
  · obtain ⟨A, P, h3, h4, h5⟩ := S.some
    exact .step (h3 s _ h2 as) (h5 s h1 _ h2)

theorem look_out (W : WrittenOut env env' K) (S : OutScope env K q ps F c c') {s : String} {as : List Node} {n' : Node}
    (h : WriteOut env K q ps F (.rule s as) n') : LookOut env env' K c s as c' n' := by
  cases h with
  | param _ h =>
    obtain ⟨A, P, h1, h2, h3⟩ := S.some
    exact .out (h1 s _ h as) (h2 s _ h)
  | name u h1 h2 h3 h4 =>
    cases look_kept W S h1 h2 h3 h4 with
    | fatal a b => exact .fatal a b
    | error a b => exact .error rfl a b
    | ok a b h => obtain ⟨q, hS, hw, _⟩ := h; exact .kept rfl a b (hS.stands hw)
  | @body _ _ _ _ as' d _ F' h1 h2 h3 h4 h5 h6 =>
    have e1 := lookup_derive (as := as) (S.none s h1) h2
    rw [if_pos h3] at e1
    have hA := S.list h4
    by_cases hd : c.depth ≥ maxDepth
    · rw [if_pos hd] at e1
      exact .fatal e1 rfl
    · rw [if_neg hd] at e1
      refine .out e1 (OutScope.stands ⟨S.free, ?_, ?_, ?_⟩ h6)
      · have := S.depth
        show c'.depth ≤ c.depth + 1
        omega
      · intro t; rw [Ctx.param_frame]; exact (argFor_zip2 hA).1 t
      · have g2 := (argFor_zip2 (ss := d.params) hA).2
        refine ⟨fun t => (argFor (d.params.zip as) t).getD (.group []), fun _ => c, ?_, ?_, ?_⟩
        · intro t a' ht xs
          obtain ⟨a, h6, h7⟩ := g2 t a' ht
          simp only [Ctx.lookupRule, gmapFind_argFor, h6, Option.getD_some]
        · intro t a' ht
          obtain ⟨a, h6, h7⟩ := g2 t a' ht
          simpa only [h6, Option.getD_some] using h7
        · intro t hF a' ht
          obtain ⟨a, h6, h7⟩ := g2 t a' ht
          obtain ⟨b, h8, h9⟩ := h5 t hF a h6
          rw [ht] at h8
          cases h8
          simpa only [h6, Option.getD_some] using S.keyOut h9
end

/-- Leaves of control operators. -/
inductive LeafLax (env env' : Env) (m m' : Node) : Prop
  | mk : (∀ op, RLax (limitOf env op m) (limitOf env' op m')) →
      RLax (normalizeSizeRange env m) (normalizeSizeRange env' m') →
      ((∃ p, m = .prelude p ∧ m' = .prelude p) ∨ ∀ p, m ≠ .prelude p) → LeafLax env env' m m'

/-- The functions `r` of the one schema and those of the other. -/
structure LaxRec (env env' : Env) (K : String → NameUse → Prop) (r : Rec) : Prop where
  val : ∀ {c n c' n'}, Stands env K c n c' n' → ∀ v, RLax (r.val v n c) ((lim env').val v n' c')
  arr : ∀ {c n c' n'}, Stands env K c n c' n' → ∀ w, SLax (r.arr n w c) ((lim env').arr n' w c')
  map : ∀ {c n c' n'}, Stands env K c n c' n' → ∀ w, SLax (r.map n w c) ((lim env').map n' w c')
  chf : ∀ {q ps F c s as c' as'}, OutScope env K q ps F c c' → argFor ps s = none → s ∉ q → K s .choices →
    WriteOutL env K q ps F as as' → ∀ v, RLax (r.chf s as v c) ((lim env').chf s as' v c')
  mchf : ∀ {q ps F c s as c' as'}, OutScope env K q ps F c c' → argFor ps s = none → s ∉ q → K s .choices →
    WriteOutL env K q ps F as as' → ∀ w, SLax (r.mchf s as w c) ((lim env').mchf s as' w c')
  deref : ∀ {c n c' n'}, Stands env K c n c' n' → RLax (r.deref n c) ((lim env').deref n' c')
  chase : ∀ {c n c' n'}, Stands env K c n c' n' →
    (∃ m m', r.chase n c = .ok m ∧ (lim env').chase n' c' = .ok m' ∧ LeafLax env env' m m') ∨
    RLax (r.chase n c) ((lim env').chase n' c') ∧ ∀ m, r.chase n c ≠ .ok m
  key : ∀ {c k k'}, KeyStands env c k k' → ∀ v c', r.val v k c = .fuel ∨ (lim env').val v k' c' = r.val v k c
  noNames : ∀ v n c c', n.names = [] → r.val v n c = .fuel ∨ (lim env').val v n c' = r.val v n c

section
variable {env env' : Env} {K : String → NameUse → Prop} (W : WrittenOut env env' K) {r : Rec} (H : LaxRec env env' K r)
include W H

theorem item_lax {c n c' n'} (h : StandsG env K c c' n n') (v : Value) :
    RLax (choiceifyItem r v c n) (choiceifyItem (lim env') v c' n') := by
  cases h with
  | name h1 h2 h3 h4 h5 => exact H.chf h1 h2 h3 h4 h5 v
  | keyValue _ h => exact H.val h v
  | other h1 h2 h3 h4 h5 =>
    have e1 : choiceifyItem r v c n = r.val v n c := by
      cases n <;> first | rfl | exact absurd rfl (h1 _ _) | exact absurd rfl (h2 _ _ _)
    have e2 : choiceifyItem (lim env') v c' n' = (lim env').val v n' c' := by
      cases n' <;> first | rfl | exact absurd rfl (h3 _ _) | exact absurd rfl (h4 _ _ _)
    rw [e1, e2]
    exact H.val h5 v

theorem mitem_lax {c n c' n'} (h : StandsG env K c c' n n') (w : WMap) :
    SLax (mapChoiceifyItem r c n w) (mapChoiceifyItem (lim env') c' n' w) := by
  cases h with
  | name h1 h2 h3 h4 h5 => exact H.mchf h1 h2 h3 h4 h5 w
  | keyValue _ h => exact H.map h w
  | other h1 h2 h3 h4 h5 =>
    have e1 : mapChoiceifyItem r c n w = r.map n w c := by
      cases n <;> first | rfl | exact absurd rfl (h1 _ _) | exact absurd rfl (h2 _ _ _)
    have e2 : mapChoiceifyItem (lim env') c' n' w = (lim env').map n' w c' := by
      cases n' <;> first | rfl | exact absurd rfl (h3 _ _) | exact absurd rfl (h4 _ _ _)
    rw [e1, e2]
    exact H.map h5 w

theorem arrayValue_lax {c n c' n'} (h : Stands env K c n c' n') (w : WArr) :
    SLax (validateArrayValue env r n w c) (validateArrayValue env' (lim env') n' w c') := by
  unfold validateArrayValue
  cases w.array with
  | nil => exact .mismatch _ _ _
  | cons x xs =>
    dsimp only
    have h := H.val h x
    generalize r.val x n c = a at h
    generalize (lim env').val x n' c' = b at h
    cases h with
    | fuel => exact .fuel _
    | panic => exact .panic _
    | fatal _ h => exact .fatal _ _ h
    | ok a => exact .refl _
    | err h => exact .err _ h

theorem arr_lax {c n c' n'} (h : Stands env K c n c' n') (w : WArr) :
    SLax (arrBody env r n w c) ((lim env').arr n' w c') := by
  induction h with
  | param as hg _ ih =>
    rw [arr_eq]
    simp only [arrBody, Ctx.lookupRule, (gmapFind_argFor _ _).trans hg]
    exact ih
  | @mk q ps F c c' n n' A P h1 h2 h3 h4 h5 h6 hw _ =>
    have S : OutScope env K q ps F c c' := ⟨h1, h2, h3, A, P, h4, h5, h6⟩
    have hst := S.stands hw
    clear h1 h2 h3 h4 h5 h6
    have dflt := arrayValue_lax W H hst w
    cases n
    case rule s as =>
      simp only [arrBody]
      cases look_out W S hw with
      | fatal a b => rw [a]; exact .fatal _ _ b
      | out a b => rw [a]; exact H.arr b w
      | error e a b => subst e; rw [arr_eq]; simp only [arrBody, a, b]; exact .refl _
      | kept e a b h => subst e; rw [arr_eq]; simp only [arrBody, a, b]; exact H.arr h w
    all_goals
      rw [arr_eq]
      cases hw
      try exact dflt
    case occur h =>
      simp only [arrBody, validateArrayOccur]
      exact occurLoopS_lax (H.arr (S.stands h)) _ _ _
    case keyValue h => exact arrayValue_lax W H (S.stands h) w
    case choice h =>
      exact choiceLoopS_lax (fun _ h => h) (fun e e' => Err.er_isFatal) ((S.list h).imp fun a b hab => H.arr hab) w
    case group h =>
      simp only [arrBody, validateArrayGroup]
      have h := seqLoopS_lax ((S.list h).imp fun a b hab => H.arr hab) w.snapshot
      revert h
      generalize seqLoopS _ _ w.snapshot = a
      generalize seqLoopS _ _ w.snapshot = b
      intro h
      cases h with
      | fuel => exact .fuel _
      | panic => exact .panic _
      | fatal w' _ h =>
        dsimp only
        cases hrw : w'.rewind with
        | ok w'' => exact .fatal _ _ h
        | err e2 w2 => unfold WArr.rewind at hrw; split at hrw <;> cases hrw
        | panic => exact .panic _
        | fuel => exact .fuel _
      | ok a => exact .refl _
      | err w' h =>
        dsimp only
        cases w'.rewind with
        | ok w'' => exact .err _ h
        | err e2 w2 => exact .refl _
        | panic => exact .panic _
        | fuel => exact .fuel _
    case unwrap =>
      cases look_kept W S ‹argFor ps _ = none› ‹_› ‹K _ .contents› ‹WriteOutL env K q ps F _ _› with
      | fatal a b => simp only [arrBody, a]; exact .fatal _ _ b
      | error a b => simp only [arrBody, a, b]; exact .refl _
      | @ok n n' d d' a b h =>
        simp only [arrBody, a, b]
        obtain ⟨q, hS, hw, hu⟩ := h
        cases n
        case array l =>
          cases hw with
          | array hl => exact seqLoopS_lax ((hS.list hl).imp fun a b hab => H.arr hab) w
        case rule s as =>
          have : ∃ s as, n' = .rule s as := by
            rcases hu with hu | hu
            · exact absurd rfl (hu _ _)
            · exact hu
          obtain ⟨s', as', rfl⟩ := this
          exact .refl _
        all_goals cases hw; exact .refl _

theorem mapKey_lax {q ps F c c'} (S : OutScope env K q ps F c c') {k k' : Node} (hk : KeyOut ps F k k') (w : WMap) :
    RLax (validateMapKey env r k w c) (validateMapKey env' (lim env') k' w c') := by
  have search : ∀ {k k'}, (∀ v, r.val v k c = .fuel ∨ (lim env').val v k' c' = r.val v k c) →
      RLax (mapSearch env r k w c) (mapSearch env' (lim env') k' w c') := by
    intro k k' h
    unfold mapSearch
    generalize w.map = l
    induction l with
    | nil => exact .mismatch _ _
    | cons p l ih =>
      obtain ⟨x, v⟩ := p
      simp only [mapSearchLoop]
      rcases h x with e | e
      · rw [e]; exact .fuel _
      · rw [e]
        cases r.val x k c with
        | err e => exact ih
        | _ => exact .refl _
  rcases hk with ⟨h1, rfl⟩ | ⟨s, as, rfl, h1, h2⟩
  · have := search (k := k') (k' := k') fun v => H.noNames v k' c c' h1
    cases k' <;> try exact this
    simp only [validateMapKey, mapSearchLiteral]
    split
    · exact .refl _
    · exact .mismatch _ _
  · obtain ⟨A, P, h3, h4, h5⟩ := S.some
    have hks : KeyStands env c (.rule s as) k' := .step (h3 s _ h2 as) (h5 s h1 _ h2)
    have hnl : ∀ l, k' ≠ .literal l := by
      clear search h1 h2 h3 h4 h5 S
      generalize Node.rule s as = k at hks
      induction hks with
      | plain _ h => exact h
      | step _ _ ih => exact ih
    have := search (k := .rule s as) (k' := k') fun v => H.key hks v c'
    have e2 : validateMapKey env' (lim env') k' w c' = mapSearch env' (lim env') k' w c' := by
      cases k' <;> first | rfl | exact absurd rfl (hnl _)
    rw [e2]
    exact this

theorem map_lax {c n c' n'} (h : Stands env K c n c' n') (w : WMap) :
    SLax (mapBody env r n w c) ((lim env').map n' w c') := by
  have hst : ∀ e : Err, e.isFatal = true → (!e.isMismatch) = true := fun e h => by simp [isMismatch_fatal h]
  have hstop : ∀ e e' : Err, e'.er false = e.er false → (!e'.isMismatch) = (!e.isMismatch) :=
    fun e e' h => by rw [Err.er_isMismatch h]
  induction h with
  | param as hg _ ih =>
    rw [map_eq]
    simp only [mapBody, Ctx.lookupRule, (gmapFind_argFor _ _).trans hg]
    exact ih
  | @mk q ps F c c' n n' A P h1 h2 h3 h4 h5 h6 hw _ =>
    have S : OutScope env K q ps F c c' := ⟨h1, h2, h3, A, P, h4, h5, h6⟩
    clear h1 h2 h3 h4 h5 h6
    cases n
    case rule s as =>
      simp only [mapBody]
      cases look_out W S hw with
      | fatal a b => rw [a]; exact .fatal _ _ b
      | out a b => rw [a]; exact H.map b w
      | error e a b => subst e; rw [map_eq]; simp only [mapBody, a, b]; exact .refl _
      | kept e a b h => subst e; rw [map_eq]; simp only [mapBody, a, b]; exact H.map h w
    all_goals
      rw [map_eq]
      cases hw
      try exact .refl _
    case occur h =>
      simp only [mapBody, validateMapOccur]
      exact occurLoopS_lax (H.map (S.stands h)) _ _ _
    case keyValue key value y _ _ hk hv =>
      simp only [mapBody, validateMapKeyvalue]
      have h := mapKey_lax W H S hk w
      revert h
      generalize validateMapKey env r _ w c = a
      generalize validateMapKey env' (lim env') _ w c' = b
      intro h
      cases h with
      | fuel => exact .fuel _
      | panic => exact .panic _
      | fatal _ h => exact .fatal _ _ h
      | err h => exact .err _ h
      | ok a =>
        dsimp only
        have h := H.val (S.stands hv) a.2
        revert h
        generalize r.val a.2 _ c = x
        generalize (lim env').val a.2 _ c' = z
        intro h
        cases h with
        | fuel => exact .fuel _
        | panic => exact .panic _
        | ok _ => exact .refl _
        | @fatal e _ h => cases y <;> cases e <;> first | (cases h; done) | exact .fatal _ _ rfl
        | @err e e' h =>
          cases y <;> cases e <;> cases e' <;> simp only [Err.er, reduceCtorEq] at h <;>
            first | exact .mismatch _ _ _ | exact .err _ rfl | (cases h; exact .refl _) | exact .err _ h
    case choice h => exact choiceLoopS_lax hst hstop ((S.list h).imp fun a b hab => H.map hab) w
    case inline h =>
      exact choiceLoopS_lax hst hstop ((S.list (OutScope.groupL h)).imp fun a b hab => H.map hab) w
    case choiceify => exact H.mchf S ‹_› ‹_› ‹_› ‹_› w
    case group h =>
      simp only [mapBody, validateMapGroup]
      have h := seqLoopS_lax ((S.list h).imp fun a b hab => H.map hab) w.snapshot
      revert h
      generalize seqLoopS _ _ w.snapshot = a
      generalize seqLoopS _ _ w.snapshot = b
      intro h
      cases h with
      | fuel => exact .fuel _
      | panic => exact .panic _
      | fatal w' _ h =>
        dsimp only
        cases hrw : w'.rewind with
        | ok w'' => dsimp only; rw [eraseMapcut_fatal h]; exact .fatal _ _ h
        | err e2 w2 => unfold WMap.rewind at hrw; split at hrw <;> cases hrw
        | panic => exact .panic _
        | fuel => exact .fuel _
      | ok a => exact .refl _
      | err w' h =>
        dsimp only
        cases w'.rewind with
        | ok w'' => exact .err _ (Err.er_eraseMapcut h)
        | err e2 w2 => exact .refl _
        | panic => exact .panic _
        | fuel => exact .fuel _
    case unwrap =>
      cases look_kept W S ‹argFor ps _ = none› ‹_› ‹K _ .contents› ‹WriteOutL env K q ps F _ _› with
      | fatal a b => simp only [mapBody, a]; exact .fatal _ _ b
      | error a b => simp only [mapBody, a, b]; exact .refl _
      | @ok n n' d d' a b h =>
        simp only [mapBody, a, b]
        obtain ⟨q, hS, hw, hu⟩ := h
        cases n
        case map l =>
          cases hw with
          | map hl => exact seqLoopS_lax ((hS.list hl).imp fun a b hab => H.map hab) w
        case rule s as =>
          have : ∃ s as, n' = .rule s as := by
            rcases hu with hu | hu
            · exact absurd rfl (hu _ _)
            · exact hu
          obtain ⟨s', as', rfl⟩ := this
          exact .refl _
        all_goals cases hw; exact .refl _

theorem chf_lax {q ps F c s as c' as'} (S : OutScope env K q ps F c c') (h1 : argFor ps s = none) (h2 : s ∉ q)
    (h3 : K s .choices) (h4 : WriteOutL env K q ps F as as') (v : Value) :
    RLax (chfBody env r s as v c) ((lim env').chf s as' v c') := by
  rw [chf_eq]
  cases look_kept W S h1 h2 h3 h4 with
  | fatal a b => simp only [chfBody, a]; exact .fatal _ b
  | error a b => simp only [chfBody, a, b]; exact .refl _
  | @ok n n' d d' a b h =>
    simp only [chfBody, a, b, Res.ofExcept, Res.bind]
    obtain ⟨q, hS, hw, hu⟩ := h
    rcases hu with ⟨l, l', rfl, rfl, hl⟩ | ⟨s, as, as', rfl, rfl, h5, h6, h7⟩ | ⟨h5, h6⟩
    · exact choiceLoop_lax ((hS.groupAll hl).imp fun a b hab => item_lax W H hab v)
    · exact H.chf hS ((argFor_self _ _).2 h5) h5 h6 h7 v
    · cases n <;> first | exact absurd rfl (h5 _) | exact absurd rfl (h6 _ _) | exact .fatal _ rfl

theorem mchf_lax {q ps F c s as c' as'} (S : OutScope env K q ps F c c') (h1 : argFor ps s = none) (h2 : s ∉ q)
    (h3 : K s .choices) (h4 : WriteOutL env K q ps F as as') (w : WMap) :
    SLax (mchfBody env r s as w c) ((lim env').mchf s as' w c') := by
  have hst : ∀ e : Err, e.isFatal = true → (!e.isMismatch) = true := fun e h => by simp [isMismatch_fatal h]
  have hstop : ∀ e e' : Err, e'.er false = e.er false → (!e'.isMismatch) = (!e.isMismatch) :=
    fun e e' h => by rw [Err.er_isMismatch h]
  rw [mchf_eq]
  cases look_kept W S h1 h2 h3 h4 with
  | fatal a b => simp only [mchfBody, a]; exact .fatal _ _ b
  | error a b => simp only [mchfBody, a, b]; exact .refl _
  | @ok n n' d d' a b h =>
    simp only [mchfBody, a, b]
    obtain ⟨q, hS, hw, hu⟩ := h
    rcases hu with ⟨l, l', rfl, rfl, hl⟩ | ⟨s, as, as', rfl, rfl, h5, h6, h7⟩ | ⟨h5, h6⟩
    · exact choiceLoopS_lax hst hstop ((hS.groupAll hl).imp fun a b hab => mitem_lax W H hab) w
    · exact H.mchf hS ((argFor_self _ _).2 h5) h5 h6 h7 w
    · cases n <;> first | exact absurd rfl (h5 _) | exact absurd rfl (h6 _ _) | exact .fatal _ _ rfl

theorem deref_lax {c n c' n'} (h : Stands env K c n c' n') : RLax (derefBody env r n c) ((lim env').deref n' c') := by
  induction h with
  | param as hg _ ih =>
    rw [deref_eq]
    simp only [derefBody, Ctx.lookupRule, (gmapFind_argFor _ _).trans hg]
    exact ih
  | @mk q ps F c c' n n' A P h1 h2 h3 h4 h5 h6 hw _ =>
    have S : OutScope env K q ps F c c' := ⟨h1, h2, h3, A, P, h4, h5, h6⟩
    clear h1 h2 h3 h4 h5 h6
    cases n
    case rule s as =>
      simp only [derefBody]
      cases look_out W S hw with
      | fatal a b => rw [a]; exact .fatal _ b
      | out a b => rw [a]; exact H.deref b
      | error e a b => subst e; rw [deref_eq]; simp only [derefBody, a, b]; exact .refl _
      | kept e a b h => subst e; rw [deref_eq]; simp only [derefBody, a, b]; exact H.deref h
    case literal => rw [deref_eq]; cases hw; exact .refl _
    all_goals exact .fatal _ rfl

theorem leaf_lax {q ps F n n'} (hw : WriteOut env K q ps F n n') (hn : ∀ s as, n ≠ .rule s as) :
    LeafLax env env' n n' := by
  have lim_lax : ∀ {α : Type} {e : Err} (r : Res α), e.isFatal = true → RLax (.err e : Res α) r := fun r h => .fatal r h
  cases hw
  case param => exact absurd rfl (hn _ _)
  case name => exact absurd rfl (hn _ _)
  case body => exact absurd rfl (hn _ _)
  case prelude p => exact ⟨fun op => lim_lax _ rfl, lim_lax _ rfl, .inl ⟨p, rfl, rfl⟩⟩
  case literal l =>
    refine ⟨fun op => ?_, ?_, .inr (by simp)⟩
    · cases l <;> first | exact .refl _ | exact lim_lax _ rfl
    · cases l <;> first | exact .refl _ | exact lim_lax _ rfl
  case range a a' b b' i h1 h2 =>
    refine ⟨fun op => lim_lax _ rfl, ?_, .inr (by simp)⟩
    by_cases ha : ∃ x, a = .literal (.int x)
    · obtain ⟨x, rfl⟩ := ha
      cases h1
      by_cases hb : ∃ y, b = .literal (.int y)
      · obtain ⟨y, rfl⟩ := hb
        cases h2
        exact .refl _
      · simp only [normalizeSizeRange]
        refine RLax.bind (.refl _) fun _ => ?_
        split
        · exact absurd ⟨_, rfl⟩ hb
        · exact .fatal _ rfl
    · simp only [normalizeSizeRange]
      split
      · exact absurd ⟨_, rfl⟩ ha
      · exact .fatal _ rfl
  all_goals exact ⟨fun op => lim_lax _ rfl, lim_lax _ rfl, .inr (by simp)⟩

theorem chase_lax {c n c' n'} (h : Stands env K c n c' n') :
    (∃ m m', chaseBody env r n c = .ok m ∧ (lim env').chase n' c' = .ok m' ∧ LeafLax env env' m m') ∨
    RLax (chaseBody env r n c) ((lim env').chase n' c') ∧ ∀ m, chaseBody env r n c ≠ .ok m := by
  induction h with
  | param as hg _ ih =>
    rw [chase_eq]
    simp only [chaseBody, Ctx.lookupRule, (gmapFind_argFor _ _).trans hg]
    exact ih
  | @mk q ps F c c' n n' A P h1 h2 h3 h4 h5 h6 hw _ =>
    have S : OutScope env K q ps F c c' := ⟨h1, h2, h3, A, P, h4, h5, h6⟩
    clear h1 h2 h3 h4 h5 h6
    by_cases hn : ∃ s as, n = .rule s as
    · obtain ⟨s, as, rfl⟩ := hn
      simp only [chaseBody]
      cases look_out W S hw with
      | fatal a b => rw [a]; exact .inr ⟨.fatal _ b, by simp [Res.ofExcept, Res.bind]⟩
      | out a b => rw [a]; exact H.chase b
      | error e a b =>
        subst e; rw [chase_eq]; simp only [chaseBody, a, b]
        exact .inr ⟨.refl _, by simp [Res.ofExcept, Res.bind]⟩
      | kept e a b h => subst e; rw [chase_eq]; simp only [chaseBody, a, b]; exact H.chase h
    · have hn : ∀ s as, n ≠ .rule s as := fun s as e => hn ⟨s, as, e⟩
      have hn' : ∀ s as, n' ≠ .rule s as := by
        cases hw <;> first | (exact absurd rfl (hn _ _)) | simp
      refine .inl ⟨n, n', ?_, ?_, leaf_lax W H hw hn⟩
      · cases n <;> first | rfl | exact absurd rfl (hn _ _)
      · rw [chase_eq]
        cases n' <;> first | rfl | exact absurd rfl (hn' _ _)

theorem chase_bind_lax {c n c' n'} (h : Stands env K c n c' n') {f g : Node → Res Unit}
    (hf : ∀ m m', LeafLax env env' m m' → RLax (f m) (g m')) :
    RLax ((r.chase n c).bind f) (((lim env').chase n' c').bind g) := by
  rcases H.chase h with ⟨m, m', h1, h2, h3⟩ | ⟨h1, h2⟩
  · rw [h1, h2]; exact hf _ _ h3
  · generalize r.chase n c = a at h1 h2
    generalize (lim env').chase n' c' = b at h1
    cases h1 with
    | fuel => exact .fuel _
    | panic => exact .panic _
    | fatal _ h => exact .fatal _ h
    | ok a => exact absurd rfl (h2 a)
    | err h => exact .err h

theorem ctl_lax {c a b c' a' b'} (o : CtlOp) (h1 : Stands env K c a c' a') (h2 : Stands env K c b c' b')
    (v : Value) : RLax (validateControl env r o a b v c) (validateControl env' (lim env') o a' b' v c') := by
  cases o
  all_goals
    refine chase_bind_lax W H h2 fun m m' hm => ?_
    obtain ⟨hl, hz, _⟩ := hm
    first
    | refine RLax.bind hz fun _ => chase_bind_lax W H h1 fun t t' ht => ?_
    | refine RLax.bind (hl _) fun _ => chase_bind_lax W H h1 fun t t' ht => ?_
    obtain ⟨_, _, ht⟩ := ht
    rcases ht with ⟨p, rfl, rfl⟩ | hp
    · cases p <;> first | exact RLax.refl _ | exact .fatal _ rfl
    · split <;> first | exact absurd rfl (hp _) | exact .fatal _ rfl

theorem val_lax {c n c' n'} (h : Stands env K c n c' n') (v : Value) :
    RLax (valBody env r v n c) ((lim env').val v n' c') := by
  induction h with
  | param as hg _ ih =>
    rw [val_eq]
    simp only [valBody, validateRule, Ctx.lookupRule, (gmapFind_argFor _ _).trans hg, Res.ofExcept, Res.bind]
    exact ih
  | @mk q ps F c c' n n' A P h1 h2 h3 h4 h5 h6 hw _ =>
    have S : OutScope env K q ps F c c' := ⟨h1, h2, h3, A, P, h4, h5, h6⟩
    clear h1 h2 h3 h4 h5 h6
    cases n
    case rule s as =>
      simp only [valBody, validateRule]
      cases look_out W S hw with
      | fatal a b => rw [a]; exact .fatal _ b
      | out a b => rw [a]; exact H.val b v
      | error e a b => subst e; rw [val_eq]; simp only [valBody, validateRule, a, b]; exact .refl _
      | kept e a b h => subst e; rw [val_eq]; simp only [valBody, validateRule, a, b]; exact H.val h v
    all_goals
      rw [val_eq]
      cases hw
      simp only [valBody]
    case literal l =>
      simp only [validateLiteral]
      split
      · exact .refl _
      · exact .mismatch _ _
    case prelude => exact .refl _
    case regexp => simp only [validateControlRegexp, W.regex]; exact .refl _
    case choice h => exact choiceLoop_lax ((S.list h).imp fun a b hab => H.val hab v)
    case map h =>
      simp only [validateMap]
      cases v with
      | map m =>
        dsimp only
        have h := seqLoopS_lax ((S.list h).imp fun a b hab => H.map hab) (WMap.new m)
        revert h
        generalize seqLoopS _ _ (WMap.new m) = a
        generalize seqLoopS _ _ (WMap.new m) = b
        intro h
        cases h with
        | fuel => exact .fuel _
        | panic => exact .panic _
        | fatal w' _ h => dsimp only; rw [eraseMapcut_fatal h]; exact .fatal _ h
        | ok a => exact .refl _
        | err w' h => exact .err (Err.er_eraseMapcut h)
      | _ => exact .refl _
    case array h =>
      simp only [validateArray]
      cases v with
      | array m =>
        dsimp only
        have h := seqLoopS_lax ((S.list h).imp fun a b hab => H.arr hab) (WArr.new m)
        revert h
        generalize seqLoopS _ _ (WArr.new m) = a
        generalize seqLoopS _ _ (WArr.new m) = b
        intro h
        cases h with
        | fuel => exact .fuel _
        | panic => exact .panic _
        | fatal w' _ h => exact .fatal _ h
        | ok a => exact .refl _
        | err w' h => exact .err h
      | _ => exact .refl _
    case group h =>
      cases h with
      | nil => exact .refl _
      | cons h1 h2 =>
        cases h2 with
        | nil => exact H.val (S.stands h1) v
        | cons _ _ => exact .refl _
    case range h1 h2 =>
      refine RLax.bind (H.deref (S.stands h1)) fun s => RLax.bind (H.deref (S.stands h2)) fun e => ?_
      generalize rangeDisplay env.fmtF64 _ _ _ = x
      generalize rangeDisplay env'.fmtF64 _ _ _ = y
      cases s <;> cases e <;> cases v <;> simp only [rangeMatch, sameKind] <;>
        (try split) <;> first | exact .refl _ | exact .mismatch _ _ | (rename_i h; simp at h)
    case ctl h1 h2 => exact ctl_lax W H _ (S.stands h1) (S.stands h2) v
    case cbor h =>
      simp only [validateControlCbor]
      cases v with
      | bytes b =>
        dsimp only
        rw [W.cbor]
        cases env'.cborDecode b with
        | error m => exact .refl _
        | ok x => exact RLax.bind (.refl _) fun u => H.val (S.stands h) u
      | _ => exact .refl _
    case choiceify => exact H.chf S ‹_› ‹_› ‹_› ‹_› v
    case inline h => exact choiceLoop_lax ((S.groupAll h).imp fun a b hab => item_lax W H hab v)
    all_goals exact .refl _
end

theorem fns_lax {env env' : Env} {K : String → NameUse → Prop} (W : WrittenOut env env' K) :
    ∀ k, LaxRec env env' K (fns env k)
  | 0 => by
    constructor
    all_goals intros
    all_goals first
      | exact .fuel _
      | exact .inl rfl
      | exact .inr ⟨.fuel _, by simp [fns, Rec.bot]⟩
  | k + 1 => by
    have H := fns_lax W k
    exact {
      val := fun h v => val_lax W H h v
      arr := fun h w => arr_lax W H h w
      map := fun h w => map_lax W H h w
      chf := fun S h1 h2 h3 h4 v => chf_lax W H S h1 h2 h3 h4 v
      mchf := fun S h1 h2 h3 h4 w => mchf_lax W H S h1 h2 h3 h4 w
      deref := fun h => deref_lax W H h
      chase := fun h => chase_lax W H h
      key := fun h v c' => by
        cases h with
        | plain h _ => exact noNames_val W.regex W.cbor W.fmt h _ c' v (k + 1)
        | step h1 h2 =>
          have := H.key h2 v c'
          simpa only [fns, step, valBody, validateRule, h1, Res.ofExcept, Res.bind] using this
      noNames := fun v _ c c' hn => noNames_val W.regex W.cbor W.fmt hn c c' v (k + 1) }

/-- What is written out gives the same verdict, leaving aside fatal errors of the first schema. -/
theorem validate_lax {env env' : Env} {K : String → NameUse → Prop} (W : WrittenOut env env' K) {c c' : Ctx}
    (hok : CtxOK c) {n n' : Node} (h : Stands env K c n c' n') {v : Value} (hv : v.WF) :
    (∃ e, validate env v n c = .err e ∧ e.isFatal = true) ∨
      (validate env' v n' c').er false = (validate env v n c).er false := by
  obtain ⟨k, hk'⟩ := (lim_ev env).val v n c
  have h1 := (fns_lax W k).val h v
  have h2 := hk' k (Nat.le_refl _)
  dsimp only at h2
  rw [h2] at h1
  have hr := lim_val_returns env v n hok
  have hp := (lim_good (OkErr.triv env)).val v n c hv
  unfold validate
  generalize (lim env).val v n c = a at *
  generalize (lim env').val v n' c' = b at *
  cases h1 with
  | fuel => exact absurd rfl hr
  | panic => exact hp.elim
  | fatal _ h => exact .inl ⟨_, rfl, h⟩
  | ok _ => exact .inr rfl
  | err h => right; simp [Res.er, h]

end Cddl
