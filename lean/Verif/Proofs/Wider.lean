import Verif.Spec.Wider
import Verif.Proofs.SatInv
import Verif.Proofs.PredictLeaf
import Verif.Props.C28
import Verif.Props.C31

/-! # A loosened schema describes what it described before -/

namespace Cddl

/-! ## Cuts -/

theorem taken_app (a b : List Mark) : taken (a ++ b) = taken a ++ taken b := by
  induction a with
  | nil => rfl
  | cons x a ih => cases x <;> simp [taken, ih]

theorem cutsKept_iff (l : List Mark) : CutsKept l ↔ ∀ a k b, l = a ++ .cut k :: b → ∀ p ∈ taken b, p.1 ≠ k.toValue := by
  induction l with
  | nil => exact ⟨fun _ a k b h => (by cases a <;> cases h), fun _ => trivial⟩
  | cons x l ih =>
    refine ⟨fun h a k b he => ?_, fun h => ?_⟩
    · cases a with
      | nil =>
        cases he
        exact h.1
      | cons y a =>
        cases he
        refine (ih.mp ?_) a k b rfl
        cases x with
        | pair => exact h
        | cut => exact h.2
    · have := ih.mpr fun a k b he => h (x :: a) k b (by rw [he]; rfl)
      cases x with
      | pair => exact this
      | cut k => exact ⟨h [] k l rfl, this⟩

/-- The same pairs are taken, and a key cut in `l'` was cut or taken before in `l`. -/
def MarksW (l l' : List Mark) : Prop :=
  taken l' = taken l ∧ ∀ a' k b', l' = a' ++ .cut k :: b' →
    ∃ a b, l = a ++ b ∧ taken a = taken a' ∧ taken b = taken b' ∧ (.cut k ∈ a ∨ ∃ v, (k.toValue, v) ∈ taken a)

theorem MarksW.nil : MarksW [] [] := ⟨rfl, fun a k b h => by cases a <;> cases h⟩

theorem MarksW.pair (x v : Value) : MarksW [.pair x v] [.pair x v] := by
  refine ⟨rfl, fun a k b h => ?_⟩
  cases a with
  | nil => cases h
  | cons y a =>
    have := (List.cons.inj h).2
    cases a <;> cases this

theorem MarksW.append {l1 l1' l2 l2' : List Mark} (h1 : MarksW l1 l1') (h2 : MarksW l2 l2') :
    MarksW (l1 ++ l2) (l1' ++ l2') := by
  refine ⟨by rw [taken_app, taken_app, h1.1, h2.1], fun a' k b' he => ?_⟩
  rcases List.append_eq_append_iff.mp he with ⟨x, hx, hy⟩ | ⟨x, hx, hy⟩
  · obtain ⟨a, b, e1, e2, e3, e4⟩ := h2.2 x k b' hy
    refine ⟨l1 ++ a, b, by rw [e1, List.append_assoc], by rw [hx, taken_app, taken_app, h1.1, e2], e3, ?_⟩
    rcases e4 with h | ⟨v, h⟩
    · exact .inl (List.mem_append_right _ h)
    · exact .inr ⟨v, by rw [taken_app]; exact List.mem_append_right _ h⟩
  · cases x with
    | nil =>
      obtain ⟨a, b, e1, e2, e3, e4⟩ := h2.2 [] k b' (by simpa using hy.symm)
      refine ⟨l1 ++ a, b, by rw [e1, List.append_assoc], ?_, e3, ?_⟩
      · rw [taken_app, e2, ← h1.1, hx, List.append_nil]; simp [taken]
      rcases e4 with h | ⟨v, h⟩
      · exact .inl (List.mem_append_right _ h)
      · exact .inr ⟨v, by rw [taken_app]; exact List.mem_append_right _ h⟩
    | cons y x =>
      cases hy
      obtain ⟨a, b, e1, e2, e3, e4⟩ := h1.2 a' k x hx
      exact ⟨a, b ++ l2, by rw [e1, List.append_assoc], e2, (by rw [taken_app, e3, ← h2.1]; exact (taken_app x l2').symm), e4⟩

/-- Leaving out cuts. -/
theorem MarksW.drop {l l' : List Mark} (h : MarksW l l') {c : List Mark} (hc : taken c = []) : MarksW (l ++ c) l' := by
  have : MarksW c [] := ⟨by rw [hc]; rfl, fun a k b h => by cases a <;> cases h⟩
  simpa using h.append this

theorem MarksW.same (c : List Mark) : MarksW c c := by
  refine ⟨rfl, fun a k b h => ⟨a ++ [.cut k], b, by simp [h], ?_, rfl, .inl (by simp)⟩⟩
  rw [taken_app]; simp [taken]

/-- Cutting a key that was just taken. -/
theorem MarksW.addCut {x : Literal} {v : Value} {l' : List Mark} (h : MarksW [.pair x.toValue v] l') :
    MarksW [.pair x.toValue v] (l' ++ [.cut x]) := by
  refine ⟨by rw [taken_app, h.1]; rfl, fun a' k b' he => ?_⟩
  rcases List.append_eq_append_iff.mp he with ⟨y, hx, hy⟩ | ⟨y, hx, hy⟩
  · cases y with
    | nil =>
      cases hy
      refine ⟨[.pair x.toValue v], [], rfl, ?_, rfl, .inr ⟨v, .head _⟩⟩
      rw [hx, List.append_nil, h.1]
    | cons z y =>
      have := (List.cons.inj hy).2
      cases y <;> cases this
  · cases y with
    | nil =>
      cases hy
      refine ⟨[.pair x.toValue v], [], rfl, ?_, rfl, .inr ⟨v, .head _⟩⟩
      rw [← h.1, hx, List.append_nil]
    | cons z y =>
      cases hy
      obtain ⟨a, b, e1, e2, e3, e4⟩ := h.2 a' k y hx
      exact ⟨a, b, e1, e2, (by rw [e3]; exact ((taken_app y [.cut x]).trans (List.append_nil _)).symm), e4⟩

theorem MarksW.kept {l l' : List Mark} (h : MarksW l l') (hk : CutsKept l) (hd : ((taken l).map (·.1)).Nodup) : CutsKept l' := by
  rw [cutsKept_iff] at hk ⊢
  intro a' k b' he p hp
  obtain ⟨a, b, e1, e2, e3, e4⟩ := h.2 a' k b' he
  rw [← e3] at hp
  rcases e4 with h | ⟨v, h⟩
  · obtain ⟨a1, a2, rfl⟩ := List.append_of_mem h
    exact hk a1 k (a2 ++ b) (by simp [e1]) p (by rw [taken_app]; exact List.mem_append_right _ hp)
  · intro hpk
    rw [e1, taken_app, List.map_append, List.nodup_append] at hd
    exact hd.2.2 _ (List.mem_map_of_mem h) _ (List.mem_map_of_mem hp) hpk.symm

theorem CutsKept.nothing : ∀ {l : List Mark}, taken l = [] → CutsKept l
  | [], _ => trivial
  | .cut _ :: l, h => ⟨fun p hp => (by rw [show taken l = [] from h] at hp; cases hp), CutsKept.nothing (l := l) h⟩

theorem CutsKept.end : ∀ {l e : List Mark}, CutsKept l → taken e = [] → CutsKept (l ++ e)
  | [], _, _, he => CutsKept.nothing he
  | .pair .. :: l, _, h, he => CutsKept.end (l := l) h he
  | .cut _ :: l, e, h, he => ⟨fun p hp => h.1 p (by
      have : taken (l ++ e) = taken l := by rw [taken_app, he, List.append_nil]
      rw [← this]; exact hp), CutsKept.end h.2 he⟩

theorem Node.cuts_taken (n : Node) : taken n.cuts = [] := by
  unfold Node.cuts
  split <;> rfl

/-! ## Scopes -/

/-- What a scope binds a name to. -/
def Scope.find : Scope → String → Option Node
  | .root, _ => none
  | .frame g _, s => gmapFind g s

variable (env env' : Env) (D : String → Use → Prop)

/-- Scopes that bind the same names, with loosened arguments. -/
inductive ScopeW : List String → Scope → Scope → Prop
  | free {c c' : Scope} : (∀ s, c.find s = none) → (∀ s, c'.find s = none) → ScopeW [] c c'
  | frame {ps0 ps as as' c c'} : ps.length = as.length → Args env env' D ps0 as as' → ScopeW ps0 c c' →
      ScopeW ps (.frame (ps.zip as) c) (.frame (ps.zip as') c')

variable {env env' D}

theorem Args.length {ps as as'} (h : Args env env' D ps as as') : as'.length = as.length :=
  match h with
  | .nil _ => rfl
  | .cons _ h => by rw [List.length_cons, List.length_cons, Args.length h]

theorem Args.find {ps0 as as'} (h : Args env env' D ps0 as as') (ps : List String) (s : String) :
    (∀ n, gmapFind (ps.zip as) s = some n →
      ∃ n', gmapFind (ps.zip as') s = some n' ∧ ∀ u : Use, u.plain = true → Wider env env' D ps0 u n n') ∧
    (gmapFind (ps.zip as) s = none → gmapFind (ps.zip as') s = none) :=
  match h with
  | .nil _ => by simp [gmapFind]
  | .cons (n := m) (n' := m') (l := l) (l' := l') hw h => by
    cases ps with
    | nil => simp [gmapFind]
    | cons p ps =>
      obtain ⟨h1, h2⟩ := Args.find h ps s
      simp only [List.zip_cons_cons, gmapFind]
      cases hf : gmapFind (ps.zip l) s with
      | some x =>
        obtain ⟨n', e, hn⟩ := h1 x hf
        rw [e]
        simp only [Option.some.injEq]
        exact ⟨fun n hn' => ⟨n', rfl, hn' ▸ hn⟩, fun h => by cases h⟩
      | none =>
        rw [h2 hf]
        dsimp only
        split
        · exact ⟨fun n hn => ⟨m', rfl, (Option.some.inj hn) ▸ hw⟩, fun h => by cases h⟩
        · exact ⟨fun n hn => (by cases hn), fun _ => rfl⟩

theorem gmapFind_zip_mem {ps : List String} : ∀ {as : List Node} {s : String}, ps.length = as.length →
    (gmapFind (ps.zip as) s = none ↔ s ∉ ps) := by
  induction ps with
  | nil => intro as s _; simp [gmapFind]
  | cons p ps ih =>
    intro as s h
    cases as with
    | nil => cases h
    | cons a as =>
      have := ih (as := as) (s := s) (by simpa using h)
      simp only [List.zip_cons_cons, gmapFind, List.mem_cons, not_or]
      cases hf : gmapFind (ps.zip as) s with
      | some x =>
        rw [hf] at this
        simp at this
        simp [this]
      | none =>
        rw [hf] at this
        simp at this
        by_cases hp : p = s
        · simp [hp]
        · simp [hp, this, Ne.symm hp]

theorem Resolves.of_unbound {e : Env} {c : Scope} {s : String} {as : List Node} {d : RuleDef} (hf : c.find s = none)
    (hd : e.lookup s = .ok d) (hl : d.params.length = as.length) :
    Resolves e c s as d.node (.frame (d.params.zip as) c) := by
  cases c with
  | root => exact .atTop hd hl
  | frame g o => exact .inRule (gmapFind_unbound hf) hd hl

theorem Resolves.inv {e : Env} {c c1 : Scope} {s : String} {as : List Node} {n : Node} (h : Resolves e c s as n c1) :
    (∃ g, c = .frame g c1 ∧ gmapFind g s = some n) ∨
    ∃ d, c.find s = none ∧ e.lookup s = .ok d ∧ d.params.length = as.length ∧ n = d.node ∧
      c1 = .frame (d.params.zip as) c := by
  cases h with
  | arg _ h => exact .inl ⟨_, rfl, bound_gmapFind h⟩
  | atTop h1 h2 => exact .inr ⟨_, rfl, h1, h2, rfl, rfl⟩
  | inRule h0 h1 h2 =>
    refine .inr ⟨_, ?_, h1, h2, rfl, rfl⟩
    rename_i g _ _
    show gmapFind g s = none
    cases hg : gmapFind g s with
    | none => rfl
    | some x => exact absurd (gmapFind_bound hg) (h0 x)

theorem ScopeW.nil_free {c c' : Scope} (h : ScopeW env env' D [] c c') : (∀ s, c.find s = none) ∧ ∀ s, c'.find s = none := by
  cases h with
  | free h h' => exact ⟨h, h'⟩
  | frame => exact ⟨fun _ => rfl, fun _ => rfl⟩

variable (hD : LoosenedRules env env' D)
include hD

theorem ScopeW.resolves {ps c c' s as as' n c1 u} (hs : ScopeW env env' D ps c c') (h : Resolves env c s as n c1)
    (hu : s ∈ ps → u.plain = true) (hd : s ∈ ps ∨ D s u) (ha : Args env env' D ps as as') :
    ∃ n' c1' ps1, Resolves env' c' s as' n' c1' ∧ ScopeW env env' D ps1 c1 c1' ∧ Wider env env' D ps1 u n n' := by
  rcases h.inv with ⟨g, rfl, hg⟩ | ⟨d, hf, hl, hp, rfl, rfl⟩
  · cases hs with
    | free h1 _ => have := h1 s; rw [Scope.find, hg] at this; cases this
    | @frame ps0 ps as0 as0' _ c' hlen hargs hs =>
      obtain ⟨n', h1, h2⟩ := (hargs.find ps s).1 n hg
      have hm : s ∈ ps := by
        by_cases hm : s ∈ ps
        · exact hm
        · rw [(gmapFind_zip_mem hlen).mpr hm] at hg; cases hg
      exact ⟨n', c', ps0, .arg _ (gmapFind_bound h1), hs, h2 u (hu hm)⟩
  · have key : s ∉ ps ∧ c'.find s = none := by
      cases hs with
      | free _ h2 => exact ⟨by simp, h2 s⟩
      | frame hlen hargs hs => exact ⟨(gmapFind_zip_mem hlen).mp hf, (hargs.find ps s).2 hf⟩
    obtain ⟨d', e1, e2, e3⟩ := hD.rules s u d (hd.resolve_left key.1) hl
    refine ⟨d'.node, .frame (d'.params.zip as') c', d.params,
      .of_unbound key.2 e1 (by rw [e2, hp, ha.length]), ?_, e3⟩
    rw [e2]
    exact .frame hp ha hs

theorem Reaches.wider {c n x} (h : Reaches env c n x) : ∀ {ps c' n'}, ScopeW env env' D ps c c' →
    Wider env env' D ps .operand n n' → Reaches env' c' n' x := by
  induction h with
  | here hn =>
    intro ps c' n' hs hw
    cases hw with
    | core hw =>
      cases hw with
      | operand => exact .here hn
      | operandRule => exact absurd rfl (hn _ _)
      | choice h => cases h
      | merge h => cases h
      | rule h => cases h
      | inline h => cases h
      | item h => rcases h with h | h <;> cases h
      | entries h => rcases h with h | h <;> cases h
      | occur h => rcases h with h | h <;> cases h
    | option h => cases h
    | name h => cases h
    | addOccur h => rcases h with h | h <;> cases h
  | rule hr _ ih =>
    intro ps c' n' hs hw
    cases hw with
    | core hw =>
      cases hw with
      | operand _ h => exact absurd rfl (h _ _)
      | operandRule h1 h2 h3 =>
        obtain ⟨n', c1', ps1, e1, e2, e3⟩ := hs.resolves hD hr (fun h => absurd h h1) (.inr h2) h3
        exact .rule e1 (ih e2 e3)
      | rule h => cases h
      | inline h => cases h
      | item h => rcases h with h | h <;> cases h
    | option h => cases h
    | name h => cases h
    | addOccur h => rcases h with h | h <;> cases h
omit hD

/-! ## Additions on the outside -/

theorem ScopeW.inlined {c c' c1 : Scope} {s : String} {n : Node} {d : RuleDef} (hs : ScopeW env env' D [] c c')
    (hl : env.lookup s = .ok d) (hp : d.params = []) (hr : Resolves env c s [] n c1) :
    n = d.node ∧ ScopeW env env' D [] c1 c' := by
  rcases hr.inv with ⟨g, rfl, hg⟩ | ⟨d', hf, hl', _, rfl, rfl⟩
  · have := hs.nil_free.1 s
    rw [Scope.find, hg] at this
    cases this
  · rw [hl] at hl'
    cases hl'
    refine ⟨rfl, ?_⟩
    rw [hp]
    exact .free (fun _ => rfl) hs.nil_free.2

theorem ScopeW.into {c c' : Scope} {d : RuleDef} (hp : d.params = []) (hs : ScopeW env env' D [] c c') :
    ScopeW env env' D [] c (.frame (d.params.zip []) c') := by
  rw [hp]
  exact .free hs.nil_free.1 fun _ => rfl

theorem ScopeW.named {c c' : Scope} {s : String} {d : RuleDef} (hp : d.params = []) (hl : env'.lookup s = .ok d)
    (hs : ScopeW env env' D [] c c') : Resolves env' c' s [] d.node (.frame (d.params.zip []) c') :=
  .of_unbound (hs.nil_free.2 s) hl (by rw [hp]; rfl)

theorem Wider.lift_type {ps n n' c c' v} (hw : Wider env env' D ps .type n n') (hs : ScopeW env env' D ps c c')
    (h : ∀ {ps c' n'}, ScopeW env env' D ps c c' → Looser env env' D ps .type n n' → Sat env' c' n' v) :
    Sat env' c' n' v := by
  generalize hu : Use.type = u at hw
  exact go hw hs hu
where
  go {ps u n'} {c' : Scope} (hw : Wider env env' D ps u n n') (hs : ScopeW env env' D ps c c') (hu : Use.type = u) :
      Sat env' c' n' v :=
    match hw with
    | .core hl => h hs (hu ▸ hl)
    | .toAny _ _ => .prelude _ trivial
    | .option _ hm hw => .choice hm (go hw hs hu)
    | .name _ h1 h2 hw => .rule (hs.named h2 h1) (go hw (hs.into h2) hu)
    | .addOccur hx _ _ _ => by subst hu; rcases hx with h | h <;> cases h

theorem Wider.lift_elem {ps n n' c c' xs} (hw : Wider env env' D ps .elem n n') (hs : ScopeW env env' D ps c c')
    (h : ∀ {ps c' n'}, ScopeW env env' D ps c c' → Looser env env' D ps .elem n n' → Item env' c' n' xs) :
    Item env' c' n' xs := by
  generalize hu : Use.elem = u at hw
  exact go hw hs hu
where
  go {ps u n'} {c' : Scope} (hw : Wider env env' D ps u n n') (hs : ScopeW env env' D ps c c') (hu : Use.elem = u) :
      Item env' c' n' xs :=
    match hw with
    | .core hl => h hs (hu ▸ hl)
    | .toAny _ _ => by cases hu
    | .option _ hm hw => .choice hm (go hw hs hu)
    | .name _ h1 h2 hw => .rule (hs.named h2 h1) (go hw (hs.into h2) hu)
    | .addOccur _ ho hw _ => by
      have := Rep.succ (go hw hs hu) (.zero _ _)
      rw [List.append_nil] at this
      exact .occur ho this

theorem Wider.lift_member {ps n n' c c' l} (hn : MItem env c n l) (hw : Wider env env' D ps .member n n')
    (hs : ScopeW env env' D ps c c')
    (h : ∀ {ps c' n'}, ScopeW env env' D ps c c' → Looser env env' D ps .member n n' → ∃ l', MItem env' c' n' l' ∧ MarksW l l') :
    ∃ l', MItem env' c' n' l' ∧ MarksW l l' := by
  generalize hu : Use.member = u at hw
  exact go hw hs hu
where
  go {ps u n'} {c' : Scope} (hw : Wider env env' D ps u n n') (hs : ScopeW env env' D ps c c') (hu : Use.member = u) :
      ∃ l', MItem env' c' n' l' ∧ MarksW l l' :=
    match hw with
    | .core hl => h hs (hu ▸ hl)
    | .toAny _ _ => by cases hu
    | .option _ hm hw => by
      obtain ⟨l', h1, h2⟩ := go hw hs hu
      exact ⟨l', .choice hm h1, h2⟩
    | .name _ h1 h2 hw => by
      obtain ⟨l', h3, h4⟩ := go hw (hs.into h2) hu
      exact ⟨l', .rule (hs.named h2 h1) h3, h4⟩
    | .addOccur (n' := n1) _ ho hw hc => by
      obtain ⟨l', h3, h4⟩ := go hw hs hu
      have := MRep.succ h3 (.zero _ _)
      rw [List.append_nil] at this
      refine ⟨_, .occur ho this, ?_⟩
      rcases hc with hc | hc | ⟨k, t, x, rfl, hc⟩
      · rw [hc] at hu; cases hu
      · rw [hc, List.append_nil]; exact h4
      · rw [hc]
        cases hn with
        | keyValue _ hk ht =>
          cases hk
          exact h4.addCut

/-! ## The main induction -/

theorem Options.mem {ps u l l' n} (h : Options env env' D ps u l l') (hn : n ∈ l) : ∃ n' ∈ l', Wider env env' D ps u n n' :=
  match h with
  | .nil .. => by cases hn
  | .cons h1 h2 h3 => by
    rcases List.mem_cons.mp hn with rfl | hn
    · exact ⟨_, h1, h2⟩
    · exact Options.mem h3 hn

theorem seq_skip (c : Scope) : ∀ l : List Node, (∀ e ∈ l, Skippable e) → ∃ ms, MSeq env c l ms ∧ taken ms = []
  | [], _ => ⟨[], .nil c, rfl⟩
  | e :: l, h => by
    obtain ⟨o, n, rfl, ho⟩ := h e (.head _)
    obtain ⟨ms, h1, h2⟩ := seq_skip c l fun e he => h e (.tail _ he)
    exact ⟨_, .cons (.occur ho (.zero _ _)) h1, by rw [taken_app, taken_app, n.cuts_taken, h2]; rfl⟩

theorem MSeq.app {c : Scope} {ms ms' : List Node} {l l' : List Mark} (h : MSeq env c ms l) (h' : MSeq env c ms' l') :
    MSeq env c (ms ++ ms') (l ++ l') := by
  induction ms generalizing l with
  | nil => cases h; exact h'
  | cons n ms ih =>
    cases h with
    | cons h1 h2 => rw [List.append_assoc]; exact .cons h1 (ih h2)

theorem keys_nodup {l : List (Value × Value)} {m : VMap} (h : l.Perm m) (hm : (Value.map m).WF) : (l.map (·.1)).Nodup :=
  (h.map _).nodup_iff.mpr (wf_keys hm).1

theorem inSize_type {p : PreludeType} {z : SizeArg} {v : Value} (h : InSize p z v) : InPrelude p v := by
  cases h with
  | tstr => exact ⟨_, rfl⟩
  | bstr => exact ⟨_, rfl⟩
  | uint => exact ⟨_, rfl, Int.natCast_nonneg _⟩
  | uintSame => exact ⟨_, rfl, Int.natCast_nonneg _⟩
  | uintRange => exact ⟨_, rfl, Int.natCast_nonneg _⟩

theorem inIntType_type {p : PreludeType} {x : Int} (h : InIntType p x) : InPrelude p (.integer x) := by
  cases p <;> first | cases h | skip
  · exact ⟨_, rfl⟩
  · exact ⟨_, rfl, h⟩
  · exact ⟨_, rfl, h⟩

/-- The entries of the new list before the one for the next old entry take nothing. -/
theorem Entries.split {ps u l l'} (h : Entries env env' D ps u l l') :
    ∃ pre l1', l' = pre ++ l1' ∧ (∀ e ∈ pre, ∃ o n, e = .occur o n ∧ Count o 0 ∧ (u = .elem ∨ n.cuts = [])) ∧
      ((l = [] ∧ l1' = []) ∨ ∃ n t n' t', l = n :: t ∧ l1' = n' :: t' ∧ Wider env env' D ps u n n' ∧
        Entries env env' D ps u t t') :=
  match h with
  | .nil .. => ⟨[], [], rfl, fun _ h => (by cases h), .inl ⟨rfl, rfl⟩⟩
  | .cons h1 h2 => ⟨[], _, rfl, fun _ h => (by cases h), .inr ⟨_, _, _, _, rfl, rfl, h1, h2⟩⟩
  | .add (o := o) (n' := n) h1 h2 h => by
    obtain ⟨pre, l1', e1, e2, e3⟩ := Entries.split h
    refine ⟨.occur o n :: pre, l1', by rw [e1]; rfl, fun e he => ?_, e3⟩
    rcases List.mem_cons.mp he with rfl | he
    · exact ⟨_, _, rfl, h1, h2⟩
    · exact e2 e he

theorem seq_pre {c : Scope} {l : List Node} {xs : List Value} (hl : Seq env c l xs) : ∀ pre : List Node,
    (∀ e ∈ pre, ∃ o n, e = .occur o n ∧ Count o 0) → Seq env c (pre ++ l) xs
  | [], _ => hl
  | e :: pre, h => by
    obtain ⟨o, n, rfl, ho⟩ := h e (.head _)
    exact .cons (xs := []) (.occur ho (.zero _ _)) (seq_pre hl pre fun e he => h e (.tail _ he))

theorem mseq_pre {c : Scope} {l : List Node} {xs : List Mark} (hl : MSeq env c l xs) : ∀ pre : List Node,
    (∀ e ∈ pre, ∃ o n, e = .occur o n ∧ Count o 0 ∧ n.cuts = []) → MSeq env c (pre ++ l) xs
  | [], _ => hl
  | e :: pre, h => by
    obtain ⟨o, n, rfl, ho, hc⟩ := h e (.head _)
    have := MItem.occur (env := env) (c := c) (n := n) ho (.zero _ _)
    rw [hc] at this
    exact .cons (l := []) this (mseq_pre hl pre fun e he => h e (.tail _ he))

theorem Entries.skip {ps l'} (h : Entries env env' D ps .elem [] l') {c : Scope} : Seq env' c l' [] := by
  obtain ⟨pre, l1', rfl, h1, h2⟩ := h.split
  rcases h2 with ⟨_, rfl⟩ | ⟨_, _, _, _, h, _⟩
  · exact seq_pre (.nil _) _ fun e he => (h1 e he).imp fun o h => h.imp fun n h => ⟨h.1, h.2.1⟩
  · cases h

theorem Entries.cons_inv {ps n l l'} (h : Entries env env' D ps .elem (n :: l) l') :
    ∃ n' t', (∀ {c xs}, Seq env' c (n' :: t') xs → Seq env' c l' xs) ∧ Wider env env' D ps .elem n n' ∧
      Entries env env' D ps .elem l t' := by
  obtain ⟨pre, l1', rfl, h1, h2⟩ := h.split
  rcases h2 with ⟨h, _⟩ | ⟨_, _, n', t', hl, rfl, h3, h4⟩
  · cases h
  · cases hl
    exact ⟨n', t', fun hs => seq_pre hs _ fun e he => (h1 e he).imp fun o h => h.imp fun n h => ⟨h.1, h.2.1⟩, h3, h4⟩

theorem Entries.mskip {ps l'} (h : Entries env env' D ps .member [] l') {c : Scope} : MSeq env' c l' [] := by
  obtain ⟨pre, l1', rfl, h1, h2⟩ := h.split
  rcases h2 with ⟨_, rfl⟩ | ⟨_, _, _, _, h, _⟩
  · exact mseq_pre (.nil _) _ fun e he => (h1 e he).imp fun o h => h.imp fun n h => ⟨h.1, h.2.1, h.2.2.resolve_left (by simp)⟩
  · cases h

theorem Entries.mcons_inv {ps n l l'} (h : Entries env env' D ps .member (n :: l) l') :
    ∃ n' t', (∀ {c xs}, MSeq env' c (n' :: t') xs → MSeq env' c l' xs) ∧ Wider env env' D ps .member n n' ∧
      Entries env env' D ps .member l t' := by
  obtain ⟨pre, l1', rfl, h1, h2⟩ := h.split
  rcases h2 with ⟨h, _⟩ | ⟨_, _, n', t', hl, rfl, h3, h4⟩
  · cases h
  · cases hl
    exact ⟨n', t', fun hs => mseq_pre hs _ fun e he => (h1 e he).imp fun o h => h.imp fun n h =>
      ⟨h.1, h.2.1, h.2.2.resolve_left (by simp)⟩, h3, h4⟩

macro "nope" : tactic => `(tactic| first
  | exact absurd ‹Use.plain .alt = true› (by decide)
  | exact absurd ‹Use.alt = .elem ∨ Use.alt = .member› (by decide)
  | exact absurd ‹Use.plain .alts = true› (by decide)
  | exact absurd ‹Use.alts = .elem ∨ Use.alts = .member› (by decide)
  | exact absurd ‹Use.plain .elems = true› (by decide)
  | exact absurd ‹Use.elems = .elem ∨ Use.elems = .member› (by decide)
  | exact absurd ‹Use.plain .members = true› (by decide)
  | exact absurd ‹Use.members = .elem ∨ Use.members = .member› (by decide)
  | exact absurd ‹Use.plain .type = true› (by decide)
  | exact absurd ‹Use.type = .elem ∨ Use.type = .member› (by decide))

variable (hD : LoosenedRules env env' D)
include hD

mutual
theorem Sat.looser {c n v} (h : Sat env c n v) {ps c' n'} (hs : ScopeW env env' D ps c c')
    (hw : Looser env env' D ps .type n n') (hv : v.WF) : Sat env' c' n' v :=
  match h with
  | .literal _ l => by
    cases hw with
    | literal => exact .literal _ _
    | literalType _ h => exact .prelude _ h
    | _ => nope
  | .prelude _ h => by
    cases hw with
    | «prelude» _ h' => exact .prelude _ (h' _ h)
    | _ => nope
  | .choice hm h => by
    cases hw with
    | choice _ ho =>
      obtain ⟨n', hm', hw⟩ := ho.mem hm
      exact .choice hm' (hw.lift_type hs fun hs hl => Sat.looser h hs hl hv)
    | merge _ ho =>
      obtain ⟨n', hm', hw⟩ := ho.mem hm
      rw [List.mem_singleton] at hm'
      rw [← hm']
      exact hw.lift_type hs fun hs hl => Sat.looser h hs hl hv
    | _ => nope
  | .map (l := l) hm hk hp => by
    cases hw with
    | map extra he hx =>
      have hwf : ∀ p ∈ taken l, p.1.WF ∧ p.2.WF := fun p hp' =>
        (Value.WFMap_iff _).mp hv.2 p (hp.mem_iff.mp hp')
      obtain ⟨l', h1, h2⟩ := MSeq.looser hm hs he hwf
      obtain ⟨ms, h3, h4⟩ := seq_skip _ extra hx
      refine .map (h1.app h3) ?_ (by rw [taken_app, h4, List.append_nil, h2.1]; exact hp)
      exact (h2.kept hk (keys_nodup hp hv)).end h4
    | _ => nope
  | .array hm => by
    cases hw with
    | array he => exact .array (Seq.looser hm hs he ((Value.WFArr_iff _).mp hv))
    | _ => nope
  | .rule hr h => by
    cases hw with
    | rule hp hd ha =>
      obtain ⟨n', c1', ps1, e1, e2, e3⟩ := hs.resolves hD hr (fun _ => rfl) hd ha
      exact .rule e1 (e3.lift_type e2 fun hs hl => Sat.looser h hs hl hv)
    | inline hp hl hpar hw =>
      obtain ⟨e1, e2⟩ := hs.inlined hl hpar hr
      rw [← e1] at hw
      exact hw.lift_type e2 fun hs hl => Sat.looser h hs hl hv
    | _ => nope
  | .group h => by
    cases hw with
    | group hw => exact .group (hw.lift_type hs fun hs hl => Sat.looser h hs hl hv)
    | _ => nope
  | .range h1 h2 h3 => by
    cases hw with
    | range _ w1 w2 => exact .range (h1.wider hD hs w1) (h2.wider hD hs w2) h3
    | rangeWider _ h =>
      cases h1; cases h2
      exact .range (.here (by simp)) (.here (by simp)) (h _ h3)
    | rangeType _ h =>
      cases h1; cases h2
      exact .prelude _ (h _ h3)
    | _ => nope
  | .compare h1 h2 h3 h4 => by
    cases hw with
    | ctl _ w1 w2 => exact .compare (h1.wider hD hs w1) (h2.wider hD hs w2) h3 h4
    | ctlType =>
      cases h1
      exact .prelude _ (inIntType_type h3)
    | _ => nope
  | .size h1 h2 h3 => by
    cases hw with
    | ctl _ w1 w2 => exact .size (h1.wider hD hs w1) (h2.wider hD hs w2) h3
    | ctlType =>
      cases h1
      exact .prelude _ (inSize_type h3)
    | _ => nope
  | .regexp _ h => by
    cases hw with
    | regexp => exact .regexp _ (by rw [hD.regex]; exact h)
    | regexpType => exact .prelude _ ⟨_, rfl⟩
    | _ => nope
  | .cbor h1 h2 h3 => by
    cases hw with
    | cbor hw =>
      exact .cbor (by rw [hD.cbor]; exact h1) h2 (hw.lift_type hs fun hs hl => Sat.looser h3 hs hl (Cbor.toValue_WF _ _ ((cbor_ok _ _).mpr h2)))
    | cborType => exact .prelude _ ⟨_, rfl⟩
    | _ => nope
  | .choiceify h => by
    cases hw with
    | choiceify h1 h2 h3 => exact .choiceify (OneOf.looser h hs h1 h2 h3 hv)
    | _ => nope
  | .choiceifyInline hm h => by
    cases hw with
    | choiceifyInline ho =>
      obtain ⟨n', hm', hw⟩ := ho.mem hm
      exact .choiceifyInline hm' (Alt.looser h hs hw hv)
    | _ => nope
theorem Alt.looser {c m v} (h : Alt env c m v) {ps c' m'} (hs : ScopeW env env' D ps c c')
    (hw : Wider env env' D ps .alt m m') (hv : v.WF) : Alt env' c' m' v :=
  match h with
  | .keyValue _ _ h => by
    cases hw with
    | core hw =>
      cases hw with
      | altKey _ _ _ _ hw => exact .keyValue _ _ (hw.lift_type hs fun hs hl => Sat.looser h hs hl hv)
      | altType hk => exact absurd rfl (hk _ _ _)
      | _ => nope
    | _ => nope
  | .rule h => by
    cases hw with
    | core hw =>
      cases hw with
      | altRule h1 h2 h3 => exact .rule (OneOf.looser h hs h1 h2 h3 hv)
      | altType _ hk => exact absurd rfl (hk _ _)
      | _ => nope
    | _ => nope
  | .other n1 n2 h => by
    cases hw with
    | core hw =>
      cases hw with
      | altKey => exact absurd rfl (n1 _ _ _)
      | altRule => exact absurd rfl (n2 _ _)
      | altType _ _ h3 h4 hw => exact .other h3 h4 (hw.lift_type hs fun hs hl => Sat.looser h hs hl hv)
      | _ => nope
    | _ => nope
theorem OneOf.looser {c s as v} (h : OneOf env c s as v) {ps c' as'} (hs : ScopeW env env' D ps c c')
    (h1 : s ∉ ps) (h2 : D s .alts) (h3 : Args env env' D ps as as') (hv : v.WF) : OneOf env' c' s as' v :=
  match h with
  | .group hr hm h => by
    obtain ⟨n', c1', ps1, e1, e2, e3⟩ := hs.resolves hD hr (fun h => absurd h h1) (.inr h2) h3
    cases e3 with
    | core hw =>
      cases hw with
      | alts ho =>
        obtain ⟨m', hm', hw⟩ := ho.mem hm
        exact .group e1 hm' (Alt.looser h e2 hw hv)
      | _ => nope
    | _ => nope
  | .rule hr h => by
    obtain ⟨n', c1', ps1, e1, e2, e3⟩ := hs.resolves hD hr (fun h => absurd h h1) (.inr h2) h3
    cases e3 with
    | core hw =>
      cases hw with
      | altsRule w1 w2 w3 => exact .rule e1 (OneOf.looser h e2 w1 w2 w3 hv)
      | _ => nope
    | _ => nope
theorem Item.looser {c n xs} (h : Item env c n xs) {ps c' n'} (hs : ScopeW env env' D ps c c')
    (hw : Looser env env' D ps .elem n n') (hv : ∀ x ∈ xs, x.WF) : Item env' c' n' xs :=
  match h with
  | .value hi h => by
    cases hw with
    | item _ _ hi' hw => exact .value hi' (hw.lift_type hs fun hs hl => Sat.looser h hs hl (hv _ (.head _)))
    | _ => cases hi
  | .keyValue _ _ h => by
    cases hw with
    | elemKey _ _ _ _ hw => exact .keyValue _ _ (hw.lift_type hs fun hs hl => Sat.looser h hs hl (hv _ (.head _)))
    | item _ hi => cases hi
  | .rule hr h => by
    cases hw with
    | rule hp hd ha =>
      obtain ⟨n', c1', ps1, e1, e2, e3⟩ := hs.resolves hD hr (fun _ => rfl) hd ha
      exact .rule e1 (e3.lift_elem e2 fun hs hl => Item.looser h hs hl hv)
    | inline hp hl hpar hw =>
      obtain ⟨e1, e2⟩ := hs.inlined hl hpar hr
      rw [← e1] at hw
      exact hw.lift_elem e2 fun hs hl => Item.looser h hs hl hv
    | item _ hi => cases hi
  | .unwrap hr h => by
    cases hw with
    | unwrapArray h1 h2 h3 =>
      obtain ⟨n', c1', ps1, e1, e2, e3⟩ := hs.resolves hD hr (fun h => absurd h h1) (.inr h2) h3
      cases e3 with
      | core hw =>
        cases hw with
        | elems he => exact .unwrap e1 (Seq.looser h e2 he hv)
        | _ => nope
      | _ => nope
    | item _ hi => cases hi
  | .choice hm h => by
    cases hw with
    | choice _ ho =>
      obtain ⟨n', hm', hw⟩ := ho.mem hm
      exact .choice hm' (hw.lift_elem hs fun hs hl => Item.looser h hs hl hv)
    | merge _ ho =>
      obtain ⟨n', hm', hw⟩ := ho.mem hm
      rw [List.mem_singleton] at hm'
      rw [← hm']
      exact hw.lift_elem hs fun hs hl => Item.looser h hs hl hv
    | item _ hi => cases hi
  | .group h => by
    cases hw with
    | entries _ he => exact .group (Seq.looser h hs he hv)
    | item _ hi => cases hi
  | .occur hk h => by
    cases hw with
    | occur _ ho hw _ => exact .occur (ho _ hk) (Rep.looser h hs hw hv)
    | item _ hi => cases hi
theorem Seq.looser {c l xs} (h : Seq env c l xs) {ps c' l'} (hs : ScopeW env env' D ps c c')
    (hw : Entries env env' D ps .elem l l') (hv : ∀ x ∈ xs, x.WF) : Seq env' c' l' xs :=
  match h with
  | .nil _ => by
    exact hw.skip
  | .cons h1 h2 => by
    obtain ⟨n', l1', hr, hw1, hw2⟩ := hw.cons_inv
    exact hr (.cons (hw1.lift_elem hs fun hs hl => Item.looser h1 hs hl fun x hx => hv x (List.mem_append_left _ hx))
      (Seq.looser h2 hs hw2 fun x hx => hv x (List.mem_append_right _ hx)))
theorem Rep.looser {c n k xs} (h : Rep env c n k xs) {ps c' n'} (hs : ScopeW env env' D ps c c')
    (hw : Wider env env' D ps .elem n n') (hv : ∀ x ∈ xs, x.WF) : Rep env' c' n' k xs :=
  match h with
  | .zero _ _ => .zero _ _
  | .succ h1 h2 => .succ (hw.lift_elem hs fun hs hl => Item.looser h1 hs hl fun x hx => hv x (List.mem_append_left _ hx))
      (Rep.looser h2 hs hw fun x hx => hv x (List.mem_append_right _ hx))
theorem MItem.looser {c n l} (h : MItem env c n l) {ps c' n'} (hs : ScopeW env env' D ps c c')
    (hw : Looser env env' D ps .member n n') (hv : ∀ p ∈ taken l, p.1.WF ∧ p.2.WF) : ∃ l', MItem env' c' n' l' ∧ MarksW l l' :=
  match h with
  | .keyValue _ h1 h2 => by
    cases hw with
    | memberKey _ _ w1 w2 =>
      exact ⟨_, .keyValue _ (w1.lift_type hs fun hs hl => Sat.looser h1 hs hl (hv _ (.head _)).1)
        (w2.lift_type hs fun hs hl => Sat.looser h2 hs hl (hv _ (.head _)).2), .pair _ _⟩
    | item _ hi => cases hi
  | .rule hr h => by
    cases hw with
    | rule hp hd ha =>
      obtain ⟨n', c1', ps1, e1, e2, e3⟩ := hs.resolves hD hr (fun _ => rfl) hd ha
      obtain ⟨l', h1, h2⟩ := e3.lift_member h e2 fun hs hl => MItem.looser h hs hl hv
      exact ⟨l', .rule e1 h1, h2⟩
    | inline hp hl hpar hw =>
      obtain ⟨e1, e2⟩ := hs.inlined hl hpar hr
      rw [← e1] at hw
      exact hw.lift_member h e2 fun hs hl => MItem.looser h hs hl hv
    | item _ hi => cases hi
  | .unwrap hr h => by
    cases hw with
    | unwrapMap h1 h2 h3 =>
      obtain ⟨n', c1', ps1, e1, e2, e3⟩ := hs.resolves hD hr (fun h => absurd h h1) (.inr h2) h3
      cases e3 with
      | core hw =>
        cases hw with
        | members he =>
          obtain ⟨l', h1, h2⟩ := MSeq.looser h e2 he hv
          exact ⟨l', .unwrap e1 h1, h2⟩
        | _ => nope
      | _ => nope
    | item _ hi => cases hi
  | .choice hm h => by
    cases hw with
    | choice _ ho =>
      obtain ⟨n', hm', hw⟩ := ho.mem hm
      obtain ⟨l', h1, h2⟩ := hw.lift_member h hs fun hs hl => MItem.looser h hs hl hv
      exact ⟨l', .choice hm' h1, h2⟩
    | merge _ ho =>
      obtain ⟨n', hm', hw⟩ := ho.mem hm
      rw [List.mem_singleton] at hm'
      rw [← hm']
      exact hw.lift_member h hs fun hs hl => MItem.looser h hs hl hv
    | item _ hi => cases hi
  | .group h => by
    cases hw with
    | entries _ he =>
      obtain ⟨l', h1, h2⟩ := MSeq.looser h hs he hv
      exact ⟨l', .group h1, h2⟩
    | item _ hi => cases hi
  | .occur (n := n) hk h => by
    cases hw with
    | occur _ ho hw hc =>
      obtain ⟨l', h1, h2⟩ := MRep.looser h hs hw fun p hp => hv p (by rw [taken_app]; exact List.mem_append_left _ hp)
      refine ⟨_, .occur (ho _ hk) h1, ?_⟩
      rcases hc with hc | hc | hc
      · cases hc
      · rw [hc, List.append_nil]
        exact h2.drop n.cuts_taken
      · rw [hc]
        exact h2.append (.same _)
    | item _ hi => cases hi
theorem MSeq.looser {c ns l} (h : MSeq env c ns l) {ps c' ns'} (hs : ScopeW env env' D ps c c')
    (hw : Entries env env' D ps .member ns ns') (hv : ∀ p ∈ taken l, p.1.WF ∧ p.2.WF) : ∃ l', MSeq env' c' ns' l' ∧ MarksW l l' :=
  match h with
  | .nil _ => by
    exact ⟨[], hw.mskip, .nil⟩
  | .cons h1 h2 => by
    obtain ⟨n', l1', hr, hw1, hw2⟩ := hw.mcons_inv
    obtain ⟨a, a1, a2⟩ := hw1.lift_member h1 hs fun hs hl => MItem.looser h1 hs hl fun x hx => hv x (by
      rw [taken_app]; exact List.mem_append_left _ hx)
    obtain ⟨b, b1, b2⟩ := MSeq.looser h2 hs hw2 fun x hx => hv x (by rw [taken_app]; exact List.mem_append_right _ hx)
    exact ⟨a ++ b, hr (.cons a1 b1), a2.append b2⟩
theorem MRep.looser {c n k l} (h : MRep env c n k l) {ps c' n'} (hs : ScopeW env env' D ps c c')
    (hw : Wider env env' D ps .member n n') (hv : ∀ p ∈ taken l, p.1.WF ∧ p.2.WF) : ∃ l', MRep env' c' n' k l' ∧ MarksW l l' :=
  match h with
  | .zero _ _ => ⟨[], .zero _ _, .nil⟩
  | .succ h1 h2 => by
    obtain ⟨a, a1, a2⟩ := hw.lift_member h1 hs fun hs hl => MItem.looser h1 hs hl fun x hx => hv x (by
      rw [taken_app]; exact List.mem_append_left _ hx)
    obtain ⟨b, b1, b2⟩ := MRep.looser h2 hs hw fun x hx => hv x (by rw [taken_app]; exact List.mem_append_right _ hx)
    exact ⟨a ++ b, .succ a1 b1, a2.append b2⟩
end

end Cddl
