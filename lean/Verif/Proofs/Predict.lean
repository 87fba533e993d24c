import Verif.Spec.Predict
import Verif.Proofs.Sound
import Verif.Proofs.SatInv
import Verif.Proofs.SoundLeaf

/-! # Predictive schemas: what entries begin with -/

namespace Cddl

set_option linter.unusedSectionVars false

theorem Literal.toValue_inj {l l' : Literal} (h : l.toValue = l'.toValue) : l = l' := by
  cases l <;> cases l' <;> simp [Literal.toValue] at h <;> simp [h]

theorem Atom.apart_not {a b : Atom} {v : Value} (h : a.apart b = true) (ha : a.Has v) (hb : b.Has v) : False := by
  cases a with
  | sort s =>
    cases b with
    | sort s' => simp only [Atom.apart, bne_iff_ne, ne_eq, Atom.Has] at *; exact h (ha.symm.trans hb)
    | lit l => simp only [Atom.apart, bne_iff_ne, ne_eq, Atom.Has] at *; exact h (hb ▸ ha)
  | lit l =>
    cases b with
    | sort s' => simp only [Atom.apart, bne_iff_ne, ne_eq, Atom.Has] at *; exact h (ha ▸ hb)
    | lit l' => simp only [Atom.apart, bne_iff_ne, ne_eq, Atom.Has] at *; exact h (Literal.toValue_inj (ha.symm.trans hb))

theorem Atom.within_has {a b : Atom} {v : Value} (h : a.within b = true) (ha : a.Has v) : b.Has v := by
  cases a with
  | sort s =>
    cases b with
    | sort s' => simp only [Atom.within, beq_iff_eq] at h; rw [← h]; exact ha
    | lit l => simp [Atom.within] at h
  | lit l =>
    cases b with
    | sort s' => simp only [Atom.within, beq_iff_eq, Atom.Has] at *; rw [ha, h]
    | lit l' => simp only [Atom.within, beq_iff_eq] at h; rw [← h]; exact ha

namespace Look

theorem not_never {v : Value} : ¬ never.Has v := by rintro ⟨a, h, _⟩; cases h

theorem has_or {A B : Look} {v : Value} : (A.or B).Has v ↔ A.Has v ∨ B.Has v := by
  cases A with
  | none => simp [Look.or, Look.Has]
  | some a =>
    cases B with
    | none => simp [Look.or, Look.Has]
    | some b =>
      simp only [Look.or, Look.Has, List.mem_append, List.mem_filter, List.contains_eq_mem, Bool.not_eq_true',
        decide_eq_false_iff_not]
      constructor
      · rintro ⟨x, hx | hx, h⟩
        · exact .inl ⟨x, hx, h⟩
        · exact .inr ⟨x, hx.1, h⟩
      · rintro (⟨x, hx, h⟩ | ⟨x, hx, h⟩)
        · exact ⟨x, .inl hx, h⟩
        · by_cases hm : x ∈ a
          · exact ⟨x, .inl hm, h⟩
          · exact ⟨x, .inr ⟨hx, hm⟩, h⟩

theorem has_when {A : Look} {b : Bool} {v : Value} : (A.when b).Has v ↔ b = true ∧ A.Has v := by
  cases b
  · simp [Look.when, not_never]
  · simp [Look.when]

theorem apart_not {A B : Look} {v : Value} (h : A.apart B = true) (ha : A.Has v) (hb : B.Has v) : False := by
  cases A with
  | none =>
    cases B with
    | none => cases h
    | some b =>
      cases b with
      | nil => exact not_never hb
      | cons _ _ => cases h
  | some a =>
    cases B with
    | none =>
      cases a with
      | nil => exact not_never ha
      | cons _ _ => cases h
    | some b =>
      obtain ⟨x, hx, h1⟩ := ha
      obtain ⟨y, hy, h2⟩ := hb
      have h : (a.all fun x => b.all fun y => x.apart y) = true := by
        cases a with
        | nil => rfl
        | cons _ _ => exact h
      exact Atom.apart_not (List.all_eq_true.mp (List.all_eq_true.mp h x hx) y hy) h1 h2

theorem within_has {A B : Look} {v : Value} (h : A.within B = true) (ha : A.Has v) : B.Has v := by
  cases B with
  | none => trivial
  | some b =>
    cases A with
    | none => cases h
    | some a =>
      obtain ⟨x, hx, h1⟩ := ha
      obtain ⟨y, hy, h2⟩ := List.any_eq_true.mp (List.all_eq_true.mp h x hx)
      exact ⟨y, hy, Atom.within_has h2 h1⟩

end Look

/-! ## Scopes -/

/-- A generic argument that may be used anywhere. -/
def ClearArg (J : Forecast) (a : Node) : Prop :=
  a.clear J = true ∧ (a.entry J).ok = true ∧ (a.entry J).empty = false ∧ (a.entry J).clash = .never ∧
    (a.entry J).one = true

/-- A name used as a parameter. -/
def OpenName (J : Forecast) (q : String) : Prop :=
  (J q).look = none ∧ (J q).entry.first = none ∧ (J q).alt = false ∧
    (J q).unwrapEntry.ok = false ∧ (J q).member.ok = false ∧ (J q).unwrapMember.ok = false

/-- All arguments in the scope are usable anywhere. -/
def Scope.Clear (J : Forecast) : Scope → Prop
  | .root => True
  | .frame g outer => (∀ x ∈ g, ClearArg J x.2 ∧ OpenName J x.1) ∧ outer.Clear J

theorem clearArgs_mem {J : Forecast} : ∀ {as : List Node}, Node.clearArgs J as = true → ∀ a ∈ as, ClearArg J a
  | n :: ns, h, a, ha => by
    simp only [Node.clearArgs, Bool.and_eq_true, beq_iff_eq, Bool.not_eq_true'] at h
    rcases List.mem_cons.mp ha with rfl | ha
    · exact ⟨h.1.1.1.1.1, h.1.1.1.1.2, h.1.1.1.2, h.1.1.2, h.1.2⟩
    · exact clearArgs_mem h.2 a ha

theorem clears_mem {J : Forecast} : ∀ {l : List Node}, Node.clears J l = true → ∀ n ∈ l, n.clear J = true
  | n :: ns, h, a, ha => by
    simp only [Node.clears, Bool.and_eq_true] at h
    rcases List.mem_cons.mp ha with rfl | ha
    · exact h.1
    · exact clears_mem h.2 a ha

theorem clearAlts_mem {J : Forecast} : ∀ {l : List Node}, Node.clearAlts J l = true → ∀ n ∈ l, n.clearAlt J = true
  | n :: ns, h, a, ha => by
    simp only [Node.clearAlts, Bool.and_eq_true] at h
    rcases List.mem_cons.mp ha with rfl | ha
    · exact h.1
    · exact clearAlts_mem h.2 a ha

theorem looks_mem {J : Forecast} : ∀ {l : List Node} {n : Node} {v : Value}, n ∈ l → (n.look J).Has v →
    (Node.looks J l).Has v
  | n :: ns, m, v, hm, h => by
    rw [Node.looks, Look.has_or]
    rcases List.mem_cons.mp hm with rfl | hm
    · exact .inl h
    · exact .inr (looks_mem hm h)

/-- What a name stands for is as good as assumed. -/
theorem resolves_clear {env : Env} {J : Forecast} (hJ : J.Agrees env) {sc : Scope} {s : String} {as : List Node} {n : Node}
    {sc' : Scope} (hc : sc.Clear J) (ha : Node.clearArgs J as = true) (h : Resolves env sc s as n sc') :
    sc'.Clear J ∧ ((ClearArg J n ∧ OpenName J s) ∨ ∃ d : RuleDef, d.node = n ∧ J.AgreesAt s d) := by
  have args : ∀ {d : RuleDef}, env.lookup s = .ok d → ∀ x ∈ d.params.zip as, ClearArg J x.2 ∧ OpenName J x.1 := by
    rintro d hd ⟨p, a⟩ hx
    have := List.of_mem_zip hx
    exact ⟨clearArgs_mem ha a this.2, (hJ s d hd).params p this.1⟩
  cases h with
  | arg _ hb =>
    obtain ⟨pre, post, rfl, _⟩ := hb
    exact ⟨hc.2, .inl (hc.1 (s, n) (by simp))⟩
  | atTop hd _ => exact ⟨⟨args hd, trivial⟩, .inr ⟨_, rfl, hJ _ _ hd⟩⟩
  | inRule _ hd _ => exact ⟨⟨args hd, hc⟩, .inr ⟨_, rfl, hJ _ _ hd⟩⟩

/-! ## Looks of the leaves -/

theorem prelude_look {p : PreludeType} {v : Value} (h : InPrelude p v) : p.look.Has v := by
  cases p <;> cases v <;> simp [InPrelude, PreludeType.look, Look.Has, Atom.Has, Value.sort] at h ⊢ <;> omega

theorem range_look {J : Forecast} {env : Env} {sc : Scope} {a b : Node} {i : Bool} {v : Value} (h : Sat env sc (.range a b i) v) :
    (Node.look J (.range a b i)).Has v := by
  have int : ∀ x : Int, (Value.integer x).sort = .uint ∨ (Value.integer x).sort = .nint := by
    intro x; simp only [Value.sort]; split <;> simp
  cases h with
  | range ha _ h =>
    unfold Node.look
    split
    all_goals try (rename_i heq; cases heq)
    · cases ha
      cases h
      rcases int ‹_› with h | h <;> simp [Look.Has, Atom.Has, h]
    · cases ha
      cases h <;> simp [Look.Has, Atom.Has, Value.sort]
    · cases h
      · rcases int ‹_› with h | h <;> simp [Look.Has, Atom.Has, h]
      all_goals simp [Look.Has, Atom.Has, Value.sort]

theorem ctl_look {J : Forecast} {env : Env} {sc : Scope} {op : CtlOp} {t a : Node} {v : Value} (h : Sat env sc (.ctl op t a) v) :
    (Node.look J (.ctl op t a)).Has v := by
  have key : ∀ {p : PreludeType}, Reaches env sc t (.prelude p) → InPrelude p v →
      p = .uint ∨ p = .nint ∨ p = .int ∨ p = .tstr ∨ p = .bstr → (Node.look J (.ctl op t a)).Has v := by
    intro p hp hv hk
    unfold Node.look
    split
    all_goals try (rename_i heq; cases heq)
    · cases hp
      exact prelude_look hv
    · rcases hk with rfl | rfl | rfl | rfl | rfl <;> cases v <;>
        simp [InPrelude, Look.Has, Atom.Has, Value.sort] at hv ⊢ <;> omega
  cases h with
  | @compare _ _ _ _ p k x ht _ hi _ =>
    refine key ht ?_ ?_ <;> cases p <;> simp [InIntType, InPrelude] at hi ⊢ <;> exact hi
  | size ht _ h =>
    cases h <;> refine key ht ?_ ?_ <;> simp [InPrelude]

/-- Types whose look does not depend on other types. -/
def Node.leafy : Node → Bool
  | .literal _ | .prelude _ | .range .. | .ctl .. | .ctlRegexp _ | .map _ | .array _ | .ctlCbor _ => true
  | _ => false

theorem leaf_look {J : Forecast} {env : Env} {sc : Scope} {n : Node} {v : Value} (h : Sat env sc n v)
    (hn : n.leafy = true) : (n.look J).Has v := by
  cases h with
  | literal => simp [Node.look, Look.Has, Atom.Has]
  | «prelude» _ h => exact prelude_look h
  | range h1 h2 h3 => exact range_look (.range h1 h2 h3)
  | compare h1 h2 h3 h4 => exact ctl_look (.compare h1 h2 h3 h4)
  | size h1 h2 h3 => exact ctl_look (.size h1 h2 h3)
  | regexp => simp [Node.look, Look.Has, Atom.Has, Value.sort]
  | map => simp [Node.look, Look.Has, Atom.Has, Value.sort]
  | array => simp [Node.look, Look.Has, Atom.Has, Value.sort]
  | cbor => simp [Node.look, Look.Has, Atom.Has, Value.sort]
  | _ => cases hn

/-! ## Entries begin with what `first` says -/

/-- The slice agrees with what is known of the entry. -/
def ItemFacts.Fits (e : ItemFacts) (xs : List Value) : Prop :=
  match xs with
  | [] => e.empty = true
  | x :: _ => e.first.Has x

theorem ItemFacts.le_fits {e p : ItemFacts} {xs : List Value} (h : e.le p = true) (hx : e.Fits xs) : p.Fits xs := by
  simp only [ItemFacts.le, Bool.and_eq_true, Bool.or_eq_true, Bool.not_eq_true'] at h
  cases xs with
  | nil => rcases h.1.1.2 with h | h
           · rw [show e.empty = true from hx] at h; cases h
           · exact h
  | cons x t => exact Look.within_has h.1.1.1.2 hx

theorem ItemFacts.le_ok {e p : ItemFacts} (h : e.le p = true) : e.ok = true := by
  simp only [ItemFacts.le, Bool.and_eq_true] at h; exact h.1.1.1.1

theorem ItemFacts.le_one {e p : ItemFacts} (h : e.le p = true) (hp : p.one = true) : e.one = true := by
  simp only [ItemFacts.le, Bool.and_eq_true, Bool.or_eq_true, Bool.not_eq_true'] at h
  rcases h.2 with h | h
  · exact h
  · rw [hp] at h; cases h

theorem ItemFacts.seq_one {e : ItemFacts} {es : List ItemFacts} (h : (ItemFacts.seq (e :: es)).one = true) :
    e.one = true ∧ es = [] := by
  simp only [ItemFacts.seq, Bool.and_eq_true, List.isEmpty_iff] at h
  exact h

theorem ItemFacts.choice_one : ∀ {es : List ItemFacts}, (ItemFacts.choice es).one = true → ∀ e ∈ es, e.one = true
  | [a], h, e, he => by
    rcases List.mem_cons.mp he with rfl | he
    · exact h
    · cases he
  | a :: b :: t, h, e, he => by
    simp only [ItemFacts.choice, Bool.and_eq_true] at h
    rcases List.mem_cons.mp he with rfl | he
    · exact h.1
    · exact ItemFacts.choice_one (es := b :: t) h.2 e he

theorem ItemFacts.with_fits {e : ItemFacts} {b : Bool} {xs : List Value} (h : e.Fits xs) : ItemFacts.Fits { e with ok := b } xs := by
  cases xs <;> exact h

theorem ItemFacts.open_fits {e : ItemFacts} {p : ItemFacts} {b : Bool} {xs : List Value} (he : e.empty = false) (hp : p.first = none)
    (h : e.Fits xs) : ItemFacts.Fits { p with ok := b } xs := by
  cases xs with
  | nil => rw [show e.empty = true from h] at he; cases he
  | cons x t => show p.first.Has x; rw [hp]; trivial

theorem ItemFacts.fits_head {e : ItemFacts} {xs ys : List Value} (he : e.empty = false) (h : e.Fits xs) :
    ∃ x t, xs ++ ys = x :: t ∧ e.first.Has x := by
  cases xs with
  | nil => rw [show e.empty = true from h] at he; cases he
  | cons x t => exact ⟨x, _, rfl, h⟩

theorem ItemFacts.seq_fits {e : ItemFacts} {es : List ItemFacts} {xs ys : List Value} (hx : e.Fits xs) (hy : (ItemFacts.seq es).Fits ys) :
    (ItemFacts.seq (e :: es)).Fits (xs ++ ys) := by
  cases xs with
  | nil =>
    cases ys with
    | nil => simp only [ItemFacts.seq, ItemFacts.Fits, List.append_nil, Bool.and_eq_true] at *; exact ⟨hx, hy⟩
    | cons y t =>
      simp only [ItemFacts.seq, ItemFacts.Fits, List.nil_append, Look.has_or, Look.has_when] at *
      exact .inr ⟨hx, hy⟩
  | cons x t =>
    simp only [ItemFacts.seq, ItemFacts.Fits, List.cons_append, Look.has_or, Look.has_when] at *
    exact .inl hx

theorem ItemFacts.choice_fits {xs : List Value} : ∀ {es : List ItemFacts} {e : ItemFacts}, e ∈ es → e.Fits xs →
    (ItemFacts.choice es).ok = true → (ItemFacts.choice es).Fits xs
  | [a], e, he, h, _ => by
    rcases List.mem_cons.mp he with rfl | he
    · exact h
    · cases he
  | a :: b :: t, e, he, h, hok => by
    simp only [ItemFacts.choice, Bool.and_eq_true, Bool.not_eq_true'] at hok
    rcases List.mem_cons.mp he with rfl | he
    · cases xs with
      | nil => rw [show e.empty = true from h] at hok; simp at hok
      | cons x t => simp only [ItemFacts.choice, ItemFacts.Fits, Look.has_or] at *; exact .inl h
    · have := ItemFacts.choice_fits he h hok.1.1.2
      cases xs with
      | nil => simp only [ItemFacts.choice, ItemFacts.Fits] at *; exact this
      | cons x t => simp only [ItemFacts.choice, ItemFacts.Fits, Look.has_or] at *; exact .inr this

theorem ItemFacts.choice_ok {es : List ItemFacts} : (ItemFacts.choice es).ok = true → ∀ e ∈ es, e.ok = true := by
  induction es with
  | nil => intro _ e he; cases he
  | cons a t ih =>
    intro h e he
    cases t with
    | nil => rcases List.mem_cons.mp he with rfl | he
             · exact h
             · cases he
    | cons b t =>
      simp only [ItemFacts.choice, Bool.and_eq_true] at h
      rcases List.mem_cons.mp he with rfl | he
      · exact h.1.1.1
      · exact ih h.1.1.2 e he

theorem ItemFacts.seq_ok {e : ItemFacts} {es : List ItemFacts} (h : (ItemFacts.seq (e :: es)).ok = true) :
    e.ok = true ∧ (ItemFacts.seq es).ok = true ∧ e.clash.apart (ItemFacts.seq es).first = true := by
  simp only [ItemFacts.seq, Bool.and_eq_true] at h
  exact ⟨h.1.1, h.1.2, h.2⟩

theorem MemberFacts.choice_ok {es : List MemberFacts} : (MemberFacts.choice es).ok = true → ∀ e ∈ es, e.ok = true := by
  induction es with
  | nil => intro _ e he; cases he
  | cons a t ih =>
    intro h e he
    cases t with
    | nil => rcases List.mem_cons.mp he with rfl | he
             · exact h
             · cases he
    | cons b t =>
      simp only [MemberFacts.choice, Bool.and_eq_true] at h
      rcases List.mem_cons.mp he with rfl | he
      · exact h.1.1.1
      · exact ih h.1.1.2 e he

theorem MemberFacts.choice_keys {x : Value} : ∀ {es : List MemberFacts} {e : MemberFacts}, e ∈ es → e.keys.Has x → (MemberFacts.choice es).keys.Has x
  | [a], e, he, h => by
    rcases List.mem_cons.mp he with rfl | he
    · exact h
    · cases he
  | a :: b :: t, e, he, h => by
    simp only [MemberFacts.choice, Look.has_or]
    rcases List.mem_cons.mp he with rfl | he
    · exact .inl h
    · exact .inr (MemberFacts.choice_keys he h)

theorem entries_eq {J : Forecast} : ∀ l : List Node, Node.entries J l = l.map (Node.entry J)
  | [] => rfl
  | n :: ns => by simp only [Node.entries, List.map_cons, entries_eq]

theorem members_eq {J : Forecast} : ∀ l : List Node, Node.members J l = l.map (Node.member J)
  | [] => rfl
  | n :: ns => by simp only [Node.members, List.map_cons, members_eq]

theorem entry_mem {J : Forecast} {l : List Node} {n : Node} (h : n ∈ l) : n.entry J ∈ Node.entries J l := by
  rw [entries_eq]; exact List.mem_map_of_mem h

theorem member_mem {J : Forecast} {l : List Node} {n : Node} (h : n ∈ l) : n.member J ∈ Node.members J l := by
  rw [members_eq]; exact List.mem_map_of_mem h

/-- An entry that is a single item is judged as a type. -/
theorem cuts_key {J : Forecast} (n : Node) : ∀ p ∈ n.cuts, (n.member J).keys.Has p.key := by
  intro p hp
  unfold Node.cuts at hp
  split at hp
  · rw [List.mem_singleton.mp hp]
    exact ⟨_, List.mem_singleton.mpr rfl, rfl⟩
  · cases hp

theorem item_entry {J : Forecast} {n : Node} (hn : n.isItem = true) :
    n.entry J = ⟨n.clear J, n.look J, false, .never, true⟩ := by
  cases n <;> simp only [Node.isItem, Bool.false_eq_true] at hn <;>
    first
    | rfl
    | (unfold Node.entry Node.clear; rfl)
    | simp only [Node.entry, Node.clear, Node.look]

theorem MemberFacts.le_spec {e p : MemberFacts} (h : e.le p = true) :
    e.ok = true ∧ (∀ v, e.keys.Has v → p.keys.Has v) ∧ (e.empty = true → p.empty = true) ∧ (p.copes = true → e.copes = true) ∧
      (∀ v, e.grab.Has v → p.grab.Has v) ∧ ∀ v, e.held.Has v → p.held.Has v := by
  simp only [MemberFacts.le, Bool.and_eq_true, Bool.or_eq_true, Bool.not_eq_true'] at h
  obtain ⟨⟨⟨⟨⟨⟨h1, h2⟩, h3⟩, _⟩, h4⟩, h5⟩, h6⟩ := h
  refine ⟨h1, fun v => Look.within_has h2, fun he => ?_, fun hp => ?_, fun v => Look.within_has h5, fun v => Look.within_has h6⟩
  · rcases h3 with h | h
    · rw [he] at h; cases h
    · exact h
  · rcases h4 with h | h
    · exact h
    · rw [hp] at h; cases h

section
variable {env : Env} {J : Forecast} (hJ : J.Agrees env)
include hJ

mutual
theorem Sat.looks {sc : Scope} {n : Node} {v : Value} (h : Sat env sc n v) (hc : sc.Clear J) (hn : n.clear J = true) :
    (n.look J).Has v :=
  match h with
  | .literal c l => leaf_look (env := env) (.literal c l) rfl
  | .prelude c h1 => leaf_look (env := env) (.prelude c h1) rfl
  | .choice hm h' => by
    simp only [Node.clear] at hn
    simp only [Node.look]
    exact looks_mem hm (Sat.looks h' hc (clears_mem hn _ hm))
  | .map h1 h2 h3 => leaf_look (env := env) (.map h1 h2 h3) rfl
  | .array h1 => leaf_look (env := env) (.array h1) rfl
  | .rule hr h' => by
    simp only [Node.clear, Bool.and_eq_true] at hn
    simp only [Node.look]
    obtain ⟨hc', ⟨ha, ho⟩ | ⟨d, hd', hd⟩⟩ := resolves_clear hJ hc hn.2 hr
    · rw [ho.1]; trivial
    · have := hd.type hn.1
      rw [hd'] at this
      exact Look.within_has this.2 (Sat.looks h' hc' this.1)
  | .group h' => by
    simp only [Node.clear, Node.clears, Bool.and_true] at hn
    simp only [Node.look, Node.looks, Look.has_or]
    exact .inl (Sat.looks h' hc hn)
  | .range h1 h2 h3 => leaf_look (env := env) (.range h1 h2 h3) rfl
  | .compare h1 h2 h3 h4 => leaf_look (env := env) (.compare h1 h2 h3 h4) rfl
  | .size h1 h2 h3 => leaf_look (env := env) (.size h1 h2 h3) rfl
  | .regexp c h1 => leaf_look (env := env) (.regexp c h1) rfl
  | .cbor h1 h2 h3 => leaf_look (env := env) (.cbor h1 h2 h3) rfl
  | .choiceify _ => trivial
  | .choiceifyInline _ _ => trivial
theorem Item.fits {sc : Scope} {n : Node} {xs : List Value} (h : Item env sc n xs) (hc : sc.Clear J)
    (hn : (n.entry J).ok = true) : (n.entry J).Fits xs :=
  match h with
  | .value hi h' => by
    rw [item_entry hi] at hn ⊢
    exact Sat.looks h' hc hn
  | .keyValue _ _ h' => by
    simp only [Node.entry] at hn ⊢
    exact Sat.looks h' hc hn
  | .rule hr h' => by
    simp only [Node.entry, Bool.and_eq_true] at hn ⊢
    obtain ⟨hc', ⟨ha, ho⟩ | ⟨d, hd', hd⟩⟩ := resolves_clear hJ hc hn.2 hr
    · exact ItemFacts.open_fits ha.2.2.1 ho.2.1 (Item.fits h' hc' ha.2.1)
    · have hle := hd.entry hn.1
      rw [hd'] at hle
      exact ItemFacts.with_fits (ItemFacts.le_fits hle (Item.fits h' hc' (ItemFacts.le_ok hle)))
  | .unwrap hr h' => by
    simp only [Node.entry, Bool.and_eq_true] at hn ⊢
    obtain ⟨hc', ⟨ha, ho⟩ | ⟨d, hd', hd⟩⟩ := resolves_clear hJ hc hn.2 hr
    · rw [ho.2.2.2.1] at hn; cases hn.1
    · have hle := hd.unwrapEntry hn.1 _ hd'
      exact ItemFacts.with_fits (ItemFacts.le_fits hle (Seq.fits h' hc' (ItemFacts.le_ok hle)))
  | .choice hm h' => by
    simp only [Node.entry] at hn ⊢
    exact ItemFacts.choice_fits (entry_mem hm) (Item.fits h' hc (ItemFacts.choice_ok hn _ (entry_mem hm))) hn
  | .group h' => by
    simp only [Node.entry] at hn ⊢
    exact Seq.fits h' hc hn
  | .occur hk h' => by
    simp only [Node.entry, ItemFacts.occur, Bool.and_eq_true, Bool.not_eq_true'] at hn ⊢
    rcases Rep.fits h' hc hn.1.1 hn.1.2 with ⟨rfl, rfl⟩ | ⟨x, t, rfl, h⟩
    · simp only [ItemFacts.Fits, beq_iff_eq]
      cases hk <;> simp [OccurLimit.limits] at * <;> omega
    · exact h
theorem Seq.fits {sc : Scope} {ns : List Node} {xs : List Value} (h : Seq env sc ns xs) (hc : sc.Clear J)
    (hn : (ItemFacts.seq (Node.entries J ns)).ok = true) : (ItemFacts.seq (Node.entries J ns)).Fits xs :=
  match h with
  | .nil _ => rfl
  | .cons h1 h2 => by
    simp only [Node.entries] at hn ⊢
    obtain ⟨hn1, hn2, _⟩ := ItemFacts.seq_ok hn
    exact ItemFacts.seq_fits (Item.fits h1 hc hn1) (Seq.fits h2 hc hn2)
theorem Rep.fits {sc : Scope} {n : Node} {k : Nat} {xs : List Value} (h : Rep env sc n k xs) (hc : sc.Clear J)
    (hn : (n.entry J).ok = true) (he : (n.entry J).empty = false) :
    (k = 0 ∧ xs = []) ∨ ∃ x t, xs = x :: t ∧ (n.entry J).first.Has x :=
  match h with
  | .zero _ _ => .inl ⟨rfl, rfl⟩
  | .succ h1 _ => by
    exact .inr (ItemFacts.fits_head he (Item.fits h1 hc hn))
theorem MItem.keys {sc : Scope} {n : Node} {l : List Mark} (h : MItem env sc n l) (hc : sc.Clear J)
    (hn : (n.member J).ok = true) : ∀ p ∈ l, (n.member J).keys.Has p.key :=
  match h with
  | .keyValue (k := k) _ h1 _ => by
    simp only [Node.member, Bool.and_eq_true] at hn ⊢
    have := Sat.looks h1 hc hn.1
    intro p hp
    simp only [List.mem_singleton] at hp
    rw [hp]
    exact this
  | .rule hr h' => by
    simp only [Node.member, Bool.and_eq_true] at hn ⊢
    obtain ⟨hc', ⟨ha, ho⟩ | ⟨d, hd', hd⟩⟩ := resolves_clear hJ hc hn.2 hr
    · rw [ho.2.2.2.2.1] at hn; cases hn.1
    · have hle := hd.member hn.1
      rw [hd'] at hle
      obtain ⟨h1, h2, _⟩ := MemberFacts.le_spec hle
      exact fun p hp => h2 _ (MItem.keys h' hc' h1 p hp)
  | .unwrap hr h' => by
    simp only [Node.member, Bool.and_eq_true] at hn ⊢
    obtain ⟨hc', ⟨ha, ho⟩ | ⟨d, hd', hd⟩⟩ := resolves_clear hJ hc hn.2 hr
    · rw [ho.2.2.2.2.2] at hn; cases hn.1
    · have hle := hd.unwrapMember hn.1 _ hd'
      obtain ⟨h1, h2, _⟩ := MemberFacts.le_spec hle
      exact fun p hp => h2 _ (MSeq.keys h' hc' h1 p hp)
  | .choice hm h' => by
    simp only [Node.member] at hn ⊢
    exact fun p hp => MemberFacts.choice_keys (member_mem hm) (MItem.keys h' hc (MemberFacts.choice_ok hn _ (member_mem hm)) p hp)
  | .group h' => by
    simp only [Node.member] at hn ⊢
    exact MSeq.keys h' hc hn
  | .occur (n := n) hk h' => by
    simp only [Node.member, MemberFacts.occur, Bool.and_eq_true] at hn ⊢
    intro p hp
    rcases List.mem_append.mp hp with hp | hp
    · exact MRep.keys h' hc hn.1 p hp
    · exact cuts_key n p hp
theorem MSeq.keys {sc : Scope} {ns : List Node} {l : List Mark} (h : MSeq env sc ns l) (hc : sc.Clear J)
    (hn : (MemberFacts.seq (Node.members J ns)).ok = true) : ∀ p ∈ l, (MemberFacts.seq (Node.members J ns)).keys.Has p.key :=
  match h with
  | .nil _ => fun _ hp => by cases hp
  | .cons h1 h2 => by
    simp only [Node.members, MemberFacts.seq, Bool.and_eq_true] at hn ⊢
    intro p hp
    rw [Look.has_or]
    rcases List.mem_append.mp hp with hp | hp
    · exact .inl (MItem.keys h1 hc hn.1.1 p hp)
    · exact .inr (MSeq.keys h2 hc hn.1.2 p hp)
theorem MRep.keys {sc : Scope} {n : Node} {k : Nat} {l : List Mark} (h : MRep env sc n k l) (hc : sc.Clear J)
    (hn : (n.member J).ok = true) : ∀ p ∈ l, (n.member J).keys.Has p.key :=
  match h with
  | .zero _ _ => fun _ hp => by cases hp
  | .succ h1 h2 => by
    intro p hp
    rcases List.mem_append.mp hp with hp | hp
    · exact MItem.keys h1 hc hn p hp
    · exact MRep.keys h2 hc hn p hp
end

mutual
/-- Entries of single elements describe just that. -/
theorem Item.single {sc : Scope} {n : Node} {xs : List Value} (h : Item env sc n xs) (hc : sc.Clear J)
    (hn : (n.entry J).ok = true) (ho : (n.entry J).one = true) : ∃ x, xs = [x] :=
  match h with
  | .value _ _ => ⟨_, rfl⟩
  | .keyValue _ _ _ => ⟨_, rfl⟩
  | .rule hr h' => by
    simp only [Node.entry, Bool.and_eq_true] at hn ho
    obtain ⟨hc', ⟨ha, hp⟩ | ⟨d, hd', hd⟩⟩ := resolves_clear hJ hc hn.2 hr
    · exact Item.single h' hc' ha.2.1 ha.2.2.2.2
    · have hle := hd.entry hn.1
      rw [hd'] at hle
      exact Item.single h' hc' (ItemFacts.le_ok hle) (ItemFacts.le_one hle ho)
  | .unwrap hr h' => by
    simp only [Node.entry, Bool.and_eq_true] at hn ho
    obtain ⟨hc', ⟨ha, hp⟩ | ⟨d, hd', hd⟩⟩ := resolves_clear hJ hc hn.2 hr
    · rw [hp.2.2.2.1] at hn; cases hn.1
    · have hle := hd.unwrapEntry hn.1 _ hd'
      exact Seq.single h' hc' (ItemFacts.le_ok hle) (ItemFacts.le_one hle ho)
  | .choice hm h' => by
    simp only [Node.entry] at hn ho
    exact Item.single h' hc (ItemFacts.choice_ok hn _ (entry_mem hm)) (ItemFacts.choice_one ho _ (entry_mem hm))
  | .group h' => by
    simp only [Node.entry] at hn ho
    exact Seq.single h' hc hn ho
  | .occur _ _ => by
    simp only [Node.entry, ItemFacts.occur, Bool.false_eq_true] at ho
theorem Seq.single {sc : Scope} {ns : List Node} {xs : List Value} (h : Seq env sc ns xs) (hc : sc.Clear J)
    (hn : (ItemFacts.seq (Node.entries J ns)).ok = true) (ho : (ItemFacts.seq (Node.entries J ns)).one = true) :
    ∃ x, xs = [x] :=
  match h with
  | .nil _ => by simp only [Node.entries, ItemFacts.seq, Bool.false_eq_true] at ho
  | .cons (ns := ns) h1 h2 => by
    simp only [Node.entries] at hn ho
    obtain ⟨ho1, he⟩ := ItemFacts.seq_one ho
    obtain ⟨x, rfl⟩ := Item.single h1 hc (ItemFacts.seq_ok hn).1 ho1
    cases ns with
    | nil => cases h2; exact ⟨x, rfl⟩
    | cons => simp only [Node.entries, reduceCtorEq] at he
end

end

end Cddl
