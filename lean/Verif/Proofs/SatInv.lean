import Verif.Spec.Sat

/-! # Reading the description of a schema backwards -/

namespace Cddl
variable {env : Env} {c : Scope}

theorem Seq.inv_nil {zs : List Value} (h : Seq env c [] zs) : zs = [] := by cases h; rfl

theorem Seq.inv_cons {n : Node} {ns : List Node} {zs : List Value} (h : Seq env c (n :: ns) zs) :
    ∃ xs ys, zs = xs ++ ys ∧ Item env c n xs ∧ Seq env c ns ys := by
  cases h with
  | cons h1 h2 => exact ⟨_, _, rfl, h1, h2⟩

theorem Item.inv_value {n : Node} {zs : List Value} (hn : n.isItem = true) (h : Item env c n zs) :
    ∃ v, zs = [v] ∧ Sat env c n v := by
  cases h with
  | value _ h => exact ⟨_, rfl, h⟩
  | _ => cases hn

theorem Item.inv_keyValue {k t : Node} {cut : Bool} {zs : List Value} (h : Item env c (.keyValue k t cut) zs) :
    ∃ v, zs = [v] ∧ Sat env c t v := by
  cases h with
  | value hn _ => cases hn
  | keyValue _ _ h => exact ⟨_, rfl, h⟩

theorem Item.inv_choice {l : List Node} {zs : List Value} (h : Item env c (.choice l) zs) : ∃ n ∈ l, Item env c n zs := by
  cases h with
  | value hn _ => cases hn
  | choice hm h => exact ⟨_, hm, h⟩

theorem Item.inv_group {l : List Node} {zs : List Value} (h : Item env c (.group l) zs) : Seq env c l zs := by
  cases h with
  | value hn _ => cases hn
  | group h => exact h

theorem Item.inv_rule {s : String} {as : List Node} {zs : List Value} (h : Item env c (.rule s as) zs) :
    ∃ n c', Resolves env c s as n c' ∧ Item env c' n zs := by
  cases h with
  | value hn _ => cases hn
  | rule h1 h2 => exact ⟨_, _, h1, h2⟩

theorem Item.inv_unwrap {s : String} {as : List Node} {zs : List Value} (h : Item env c (.unwrap s as) zs) :
    ∃ ms c', Resolves env c s as (.array ms) c' ∧ Seq env c' ms zs := by
  cases h with
  | value hn _ => cases hn
  | unwrap h1 h2 => exact ⟨_, _, h1, h2⟩

theorem Item.inv_occur {o : OccurLimit} {n : Node} {zs : List Value} (h : Item env c (.occur o n) zs) :
    ∃ k, Count o k ∧ Rep env c n k zs := by
  cases h with
  | value hn _ => cases hn
  | occur h1 h2 => exact ⟨_, h1, h2⟩

theorem Rep.inv_zero {n : Node} {zs : List Value} (h : Rep env c n 0 zs) : zs = [] := by cases h; rfl

theorem Rep.inv_succ {n : Node} {k : Nat} {zs : List Value} (h : Rep env c n (k + 1) zs) :
    ∃ xs ys, zs = xs ++ ys ∧ Item env c n xs ∧ Rep env c n k ys := by
  cases h with
  | succ h1 h2 => exact ⟨_, _, rfl, h1, h2⟩

theorem Sat.inv_prelude {p : PreludeType} {v : Value} (h : Sat env c (.prelude p) v) : InPrelude p v := by
  cases h with
  | «prelude» _ h => exact h

theorem Sat.inv_literal {l : Literal} {v : Value} (h : Sat env c (.literal l) v) : v = l.toValue := by
  cases h
  rfl

theorem Sat.inv_array {ms : List Node} {xs : List Value} (h : Sat env c (.array ms) (.array xs)) : Seq env c ms xs := by
  cases h with
  | array h => exact h

theorem Sat.inv_map {ms : List Node} {m : VMap} (h : Sat env c (.map ms) (.map m)) : ∃ l, MSeq env c ms l ∧ CutsKept l ∧ (taken l).Perm m := by
  cases h with
  | map h h' h'' => exact ⟨_, h, h', h''⟩

theorem MSeq.inv_nil {zs : List Mark} (h : MSeq env c [] zs) : zs = [] := by cases h; rfl

theorem MSeq.inv_cons {n : Node} {ns : List Node} {zs : List Mark} (h : MSeq env c (n :: ns) zs) :
    ∃ xs ys, zs = xs ++ ys ∧ MItem env c n xs ∧ MSeq env c ns ys := by
  cases h with
  | cons h1 h2 => exact ⟨_, _, rfl, h1, h2⟩

theorem MItem.inv_keyValue {k t : Node} {cut : Bool} {zs : List Mark} (h : MItem env c (.keyValue k t cut) zs) :
    ∃ x v, zs = [.pair x v] ∧ Sat env c k x ∧ Sat env c t v := by
  cases h with
  | keyValue _ h1 h2 => exact ⟨_, _, rfl, h1, h2⟩

theorem MItem.inv_choice {l : List Node} {zs : List Mark} (h : MItem env c (.choice l) zs) :
    ∃ n ∈ l, MItem env c n zs := by
  cases h with
  | choice hm h => exact ⟨_, hm, h⟩

theorem MItem.inv_group {l : List Node} {zs : List Mark} (h : MItem env c (.group l) zs) : MSeq env c l zs := by
  cases h with
  | group h => exact h

theorem MItem.inv_unwrap {s : String} {as : List Node} {zs : List Mark} (h : MItem env c (.unwrap s as) zs) :
    ∃ ms c', Resolves env c s as (.map ms) c' ∧ MSeq env c' ms zs := by
  cases h with
  | unwrap h1 h2 => exact ⟨_, _, h1, h2⟩

theorem MItem.inv_occur {o : OccurLimit} {n : Node} {zs : List Mark} (h : MItem env c (.occur o n) zs) :
    ∃ k ys, Count o k ∧ zs = ys ++ n.cuts ∧ MRep env c n k ys := by
  cases h with
  | occur h1 h2 => exact ⟨_, _, h1, rfl, h2⟩

theorem MRep.inv_zero {n : Node} {zs : List Mark} (h : MRep env c n 0 zs) : zs = [] := by cases h; rfl

theorem MRep.inv_succ {n : Node} {k : Nat} {zs : List Mark} (h : MRep env c n (k + 1) zs) :
    ∃ xs ys, zs = xs ++ ys ∧ MItem env c n xs ∧ MRep env c n k ys := by
  cases h with
  | succ h1 h2 => exact ⟨_, _, rfl, h1, h2⟩

theorem Resolves.inv_root {s : String} {as : List Node} {n : Node} {c' : Scope} (h : Resolves env .root s as n c') :
    ∃ d, env.lookup s = .ok d ∧ d.params.length = as.length ∧ n = d.node ∧ c' = .frame (d.params.zip as) .root := by
  cases h with
  | atTop h1 h2 => exact ⟨_, h1, h2, rfl, rfl⟩

theorem taken_append : ∀ l l' : List Mark, taken (l ++ l') = taken l ++ taken l'
  | [], _ => rfl
  | .pair x v :: l, l' => by simp only [List.cons_append, taken, taken_append l l']
  | .cut _ :: l, l' => by simp only [List.cons_append, taken, taken_append l l']

theorem mem_taken {p : Value × Value} : ∀ {l : List Mark}, p ∈ taken l ↔ .pair p.1 p.2 ∈ l
  | [] => by simp [taken]
  | .pair x v :: l => by
    simp only [taken, List.mem_cons, mem_taken (l := l), Mark.pair.injEq, Prod.ext_iff]
  | .cut _ :: l => by simp only [taken, List.mem_cons, mem_taken (l := l), reduceCtorEq, false_or]

theorem cutsKept_append : ∀ {l l' : List Mark}, CutsKept (l ++ l') ↔
    CutsKept l ∧ CutsKept l' ∧ ∀ k, .cut k ∈ l → ∀ p ∈ taken l', p.1 ≠ k.toValue
  | [], l' => by simp [CutsKept]
  | .pair x v :: l, l' => by
    simp only [List.cons_append, CutsKept, List.mem_cons, reduceCtorEq, false_or]
    exact cutsKept_append
  | .cut k :: l, l' => by
    simp only [List.cons_append, CutsKept, List.mem_cons, taken_append, List.mem_append, Mark.cut.injEq]
    rw [cutsKept_append (l := l)]
    constructor
    · rintro ⟨h1, h2, h3, h4⟩
      refine ⟨⟨fun p hp => h1 p (.inl hp), h2⟩, h3, fun k' hk p hp => ?_⟩
      rcases hk with rfl | hk
      · exact h1 p (.inr hp)
      · exact h4 k' hk p hp
    · rintro ⟨⟨h1, h2⟩, h3, h4⟩
      refine ⟨fun p hp => ?_, h2, h3, fun k' hk => h4 k' (.inr hk)⟩
      rcases hp with hp | hp
      · exact h1 p hp
      · exact h4 k (.inl rfl) p hp

end Cddl
