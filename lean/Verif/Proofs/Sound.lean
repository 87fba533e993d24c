import Verif.Proofs.Undo
import Verif.Proofs.SatInv
import Verif.Spec.Rollback
import Verif.Props.C28

/-! # Soundness of matching -/

namespace Cddl

/-- A scope without its nesting depth. -/
def Ctx.scope : Ctx → Scope
  | .root _ => .root
  | .frame g past _ => .frame g past.scope

theorem gmapFind_bound : ∀ {g : List (String × Node)} {s : String} {n : Node}, gmapFind g s = some n → BoundTo g s n
  | (k, a) :: g, s, n, h => by
    simp only [gmapFind] at h
    cases hg : gmapFind g s with
    | some x =>
      rw [hg] at h
      cases h
      obtain ⟨pre, post, h1, h2⟩ := gmapFind_bound hg
      exact ⟨(k, a) :: pre, post, by rw [h1]; rfl, h2⟩
    | none =>
      rw [hg] at h
      dsimp only at h
      split at h
      · rename_i hk
        cases h
        subst hk
        refine ⟨[], g, rfl, fun p hp hpk => ?_⟩
        have : ∀ {g : List (String × Node)}, gmapFind g k = none → ∀ p ∈ g, p.1 ≠ k := by
          intro g
          induction g with
          | nil => simp
          | cons q g ih =>
            obtain ⟨q1, q2⟩ := q
            intro h p hp
            simp only [gmapFind] at h
            cases hg : gmapFind g k with
            | some x => rw [hg] at h; cases h
            | none =>
              rw [hg] at h
              dsimp only at h
              split at h
              · cases h
              · rcases List.mem_cons.mp hp with rfl | hp
                · assumption
                · exact ih hg p hp
        exact this hg p hp hpk
      · cases h

theorem gmapFind_unbound {g : List (String × Node)} {s : String} (h : gmapFind g s = none) (n : Node) : ¬ BoundTo g s n := by
  rintro ⟨pre, post, rfl, _⟩
  induction pre with
  | nil =>
    simp only [List.nil_append, gmapFind] at h
    cases hg : gmapFind post s with
    | some x => rw [hg] at h; cases h
    | none => rw [hg] at h; simp at h
  | cons p pre ih =>
    obtain ⟨p1, p2⟩ := p
    simp only [List.cons_append, gmapFind] at h
    cases hg : gmapFind (pre ++ (s, n) :: post) s with
    | some x => rw [hg] at h; cases h
    | none => exact ih hg

theorem bindRules {env : Env} {c : Ctx} {s : String} {as : List Node} {n : Node} {c' : Ctx}
    (h : ((env.lookup s).bind fun rd => (c.derive rd as).bind fun c => .ok (rd.node, c)) =
      (Except.ok (n, c') : Except Err (Node × Ctx))) :
    ∃ d, env.lookup s = .ok d ∧ d.node = n ∧ d.params.length = as.length ∧ c' = .frame (d.params.zip as) c (c.depth + 1) := by
  cases hl : env.lookup s with
  | error e => rw [hl] at h; cases h
  | ok d =>
    rw [hl] at h
    simp only [Except.bind, Ctx.derive, Ctx.incDepth] at h
    split at h
    · cases h
    · rename_i x hx
      cases h
      split at hx
      · cases hx
      · rename_i hlen
        split at hx
        · cases hx
        · rename_i d' hd
          cases hx
          split at hd
          · cases hd
          · cases hd
            exact ⟨d, rfl, rfl, by simpa using hlen, rfl⟩

theorem look_cases {env : Env} {c : Ctx} {s : String} {as : List Node} {n : Node} {c' : Ctx}
    (h : c.lookupRule env s as = .ok (n, c')) :
    (∃ g d, c = .frame g c' d ∧ gmapFind g s = some n) ∨
    (Resolves env c.scope s as n c'.scope ∧ ∃ d, env.lookup s = .ok d ∧ d.node = n ∧ c' = .frame (d.params.zip as) c (c.depth + 1)) := by
  cases c with
  | root dp =>
    obtain ⟨d, h1, rfl, h3, rfl⟩ := bindRules (c := .root dp) h
    exact .inr ⟨.atTop h1 h3, d, h1, rfl, rfl⟩
  | frame g past dp =>
    simp only [Ctx.lookupRule] at h
    cases hg : gmapFind g s with
    | some a =>
      rw [hg] at h
      cases h
      exact .inl ⟨g, dp, rfl, hg⟩
    | none =>
      rw [hg] at h
      obtain ⟨d, h1, rfl, h3, rfl⟩ := bindRules (c := .frame g past dp) h
      exact .inr ⟨.inRule (gmapFind_unbound hg) h1 h3, d, h1, rfl, rfl⟩

theorem look_resolves {env : Env} {c : Ctx} {s : String} {as : List Node} {n : Node} {c' : Ctx}
    (h : c.lookupRule env s as = .ok (n, c')) : Resolves env c.scope s as n c'.scope := by
  rcases look_cases h with ⟨g, d, rfl, hg⟩ | ⟨h, _⟩
  · exact .arg _ (gmapFind_bound hg)
  · exact h

/-- A generic argument that may be used anywhere. -/
def ArgOk (J : Judgement) (a : Node) : Prop :=
  a.typeOk J = true ∧ a.kind J .item = .single true ∧ a.kind J .member = .single true

/-- A name used as a parameter. -/
def IsParam (J : Judgement) (q : String) : Prop :=
  J.alt q = false ∧ J.unwrap .item q = .none ∧ J.unwrap .member q = .none

/-- All arguments in the scope are usable anywhere. -/
def ScopeOk (J : Judgement) : Ctx → Prop
  | .root _ => True
  | .frame g past _ => (∀ x ∈ g, ArgOk J x.2 ∧ IsParam J x.1) ∧ ScopeOk J past

theorem argsOk_mem {J : Judgement} : ∀ {as : List Node}, Node.argsOk J as = true → ∀ a ∈ as, ArgOk J a
  | n :: ns, h, a, ha => by
    simp only [Node.argsOk, Bool.and_eq_true, beq_iff_eq] at h
    rcases List.mem_cons.mp ha with rfl | ha
    · exact ⟨h.1.1.1, h.1.1.2, h.1.2⟩
    · exact argsOk_mem h.2 a ha

theorem gmapFind_mem' {g : List (String × Node)} {s : String} {n : Node} (h : gmapFind g s = some n) : (s, n) ∈ g := by
  obtain ⟨pre, post, rfl, _⟩ := gmapFind_bound h
  simp

theorem look_sound {env : Env} {J : Judgement} (hJ : J.Agrees env) {c : Ctx} {s : String} {as : List Node} {n : Node}
    {c' : Ctx} (hc : ScopeOk J c) (ha : Node.argsOk J as = true) (h : c.lookupRule env s as = .ok (n, c')) :
    Resolves env c.scope s as n c'.scope ∧ ScopeOk J c' ∧
      ((ArgOk J n ∧ IsParam J s) ∨ ∃ d, env.lookup s = .ok d ∧ d.node = n ∧ J.AgreesAt s d) := by
  rcases look_cases h with ⟨g, d, rfl, hg⟩ | ⟨h, d, hd, rfl, rfl⟩
  · have := hc.1 _ (gmapFind_mem' hg)
    exact ⟨.arg _ (gmapFind_bound hg), hc.2, .inl this⟩
  · refine ⟨h, ⟨?_, hc⟩, .inr ⟨d, hd, rfl, hJ s d hd⟩⟩
    rintro ⟨p, a⟩ hx
    have := List.of_mem_zip hx
    exact ⟨argsOk_mem ha a this.2, (hJ s d hd).params p this.1⟩

theorem kinds_mem {J : Judgement} {p : Place} : ∀ {l : List Node}, Node.kinds J p l = l.map (Node.kind J p)
  | [] => rfl
  | n :: ns => by simp only [Node.kinds, List.map_cons, kinds_mem]

theorem typesOk_mem {J : Judgement} : ∀ {l : List Node}, Node.typesOk J l = true → ∀ n ∈ l, n.typeOk J = true
  | n :: ns, h, a, ha => by
    simp only [Node.typesOk, Bool.and_eq_true] at h
    rcases List.mem_cons.mp ha with rfl | ha
    · exact h.1
    · exact typesOk_mem h.2 a ha

theorem altsOk_mem {J : Judgement} : ∀ {l : List Node}, Node.altsOk J l = true → ∀ n ∈ l, n.altOk J = true
  | n :: ns, h, a, ha => by
    simp only [Node.altsOk, Bool.and_eq_true] at h
    rcases List.mem_cons.mp ha with rfl | ha
    · exact h.1
    · exact altsOk_mem h.2 a ha

/-- Slices taken from the front of the array. -/
def ArrEats (w : WArr) (xs : List Value) (w' : WArr) : Prop := w.array = xs ++ w'.array

/-- Everything taken is on record in the innermost snapshot. -/
def ArrHeld (w w' : WArr) : Prop :=
  ∀ s ss, w.snaps = s :: ss → ∃ s', w'.snaps = s' :: ss ∧ s' ++ w'.array = s ++ w.array

/-- The outer snapshots are as before. -/
def ArrTail (w w' : WArr) : Prop := ∀ s ss, w.snaps = s :: ss → ∃ s', w'.snaps = s' :: ss

/-- Pairs taken from the map; nothing with a cut key is left. -/
def MapEats (w : WMap) (l : List Mark) (w' : WMap) : Prop :=
  w.map.Perm (taken l ++ w'.map) ∧ CutsKept l ∧ ∀ k, .cut k ∈ l → ∀ p ∈ w'.map, p.1 ≠ k.toValue

/-- Everything taken is on record in the innermost snapshot. -/
def MapHeld (w w' : WMap) : Prop :=
  ∀ s ss, w.snaps = s :: ss → ∃ s', w'.snaps = s' :: ss ∧ (s' ++ w'.map).Perm (s ++ w.map)

/-- The outer snapshots are as before. -/
def MapTail (w w' : WMap) : Prop := ∀ s ss, w.snaps = s :: ss → ∃ s', w'.snaps = s' :: ss

theorem ArrHeld.refl (w : WArr) : ArrHeld w w := fun s _ h => ⟨s, h, rfl⟩
theorem ArrHeld.trans {w w1 w2 : WArr} (h : ArrHeld w w1) (h' : ArrHeld w1 w2) : ArrHeld w w2 := by
  intro s ss hs
  obtain ⟨s1, h1, h2⟩ := h s ss hs
  obtain ⟨s2, h3, h4⟩ := h' s1 ss h1
  exact ⟨s2, h3, h4.trans h2⟩
theorem ArrTail.refl (w : WArr) : ArrTail w w := fun s _ h => ⟨s, h⟩
theorem ArrTail.trans {w w1 w2 : WArr} (h : ArrTail w w1) (h' : ArrTail w1 w2) : ArrTail w w2 := by
  intro s ss hs
  obtain ⟨s1, h1⟩ := h s ss hs
  exact h' s1 ss h1
theorem MapHeld.refl (w : WMap) : MapHeld w w := fun s _ h => ⟨s, h, .refl _⟩
theorem MapHeld.trans {w w1 w2 : WMap} (h : MapHeld w w1) (h' : MapHeld w1 w2) : MapHeld w w2 := by
  intro s ss hs
  obtain ⟨s1, h1, h2⟩ := h s ss hs
  obtain ⟨s2, h3, h4⟩ := h' s1 ss h1
  exact ⟨s2, h3, h4.trans h2⟩
theorem MapTail.refl (w : WMap) : MapTail w w := fun s _ h => ⟨s, h⟩
theorem MapTail.trans {w w1 w2 : WMap} (h : MapTail w w1) (h' : MapTail w1 w2) : MapTail w w2 := by
  intro s ss hs
  obtain ⟨s1, h1⟩ := h s ss hs
  exact h' s1 ss h1
theorem ArrEats.nil (w : WArr) : ArrEats w [] w := rfl
theorem ArrEats.trans {w : WArr} {xs : List Value} {w1 : WArr} {ys : List Value} {w2 : WArr}
    (h : ArrEats w xs w1) (h' : ArrEats w1 ys w2) : ArrEats w (xs ++ ys) w2 := by
  unfold ArrEats at *
  rw [h, h', List.append_assoc]
theorem MapEats.nil (w : WMap) : MapEats w [] w := ⟨.refl _, trivial, nofun⟩
theorem MapEats.trans {w : WMap} {xs : List Mark} {w1 : WMap} {ys : List Mark} {w2 : WMap}
    (h : MapEats w xs w1) (h' : MapEats w1 ys w2) : MapEats w (xs ++ ys) w2 := by
  obtain ⟨h1, h2, h3⟩ := h
  obtain ⟨h4, h5, h6⟩ := h'
  refine ⟨?_, cutsKept_append.mpr ⟨h2, h5, fun k hk p hp => h3 k hk p (h4.symm.subset (List.mem_append_left _ hp))⟩, fun k hk p hp => ?_⟩
  · rw [taken_append, List.append_assoc]
    exact h1.trans (h4.append_left _)
  · rcases List.mem_append.mp hk with hk | hk
    · exact h3 k hk p (h4.symm.subset (List.mem_append_right _ hp))
    · exact h6 k hk p hp

theorem VMap.insert_perm {k v : Value} : ∀ {m : VMap}, VMap.PW m → (∀ v, (k, v) ∉ m) → (m.insert k v).Perm ((k, v) :: m)
  | [], _, _ => .refl _
  | (k', v') :: t, hm, hk => by
    simp only [VMap.insert]
    cases hc : Value.cmp k k' with
    | lt => exact .refl _
    | eq => have := Value.cmp_eq k k' |>.mp hc; subst this; exact absurd List.mem_cons_self (hk v')
    | gt => exact ((VMap.insert_perm hm.tail fun v hv => hk v (List.mem_cons_of_mem _ hv)).cons _).trans (.swap _ _ _)

/-- Putting back what was removed. -/
theorem VMap.extend_perm {M : VMap} (hM : VMap.PW M) : ∀ (s : List (Value × Value)) {m : VMap}, VMap.PW m →
    (s ++ m).Perm M → m.extend s = M
  | [], m, hm, h => hm.ext hM fun p => h.mem_iff
  | (k, v) :: s, m, hm, h => by
    have hk : ∀ v', (k, v') ∉ m := by
      intro v' hv'
      have h1 : ((k, v) :: (s ++ m)).Nodup := by
        have : M.Nodup := hM.imp fun {a b} hab heq => by
          subst heq
          exact Value.cmp_lt_irrefl _ hab
        exact h.nodup_iff.mpr this
      have h2 : (k, v) ∈ M := h.mem_iff.mp List.mem_cons_self
      have h3 : (k, v') ∈ M := h.mem_iff.mp (by simp [hv'])
      have := hM.key_unique h2 h3
      subst this
      simp only [List.nodup_cons] at h1
      exact h1.1 (by simp [hv'])
    show (m.insert k v).extend s = M
    refine VMap.extend_perm hM s (hm.insert k v) ?_
    exact (((VMap.insert_perm hm hk).append_left s).trans List.perm_middle).trans h

end Cddl
