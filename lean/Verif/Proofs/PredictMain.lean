import Verif.Proofs.PredictLeaf
import Verif.Proofs.Guard
import Verif.Spec.Predictive

/-! # Predictive schemas: what is described is not turned down -/

namespace Cddl

set_option linter.unusedSectionVars false

theorem limits_of_count {o : OccurLimit} {k : Nat} (h : Count o k) : o.limits.1 ≤ k ∧ k ≤ o.limits.2 := by
  cases h <;> simp [OccurLimit.limits, usizeMax] <;> omega

theorem choiceLoop_fine {f : Node → Res Unit} {msg : String} : ∀ {l : List Node} {n : Node}, n ∈ l → (f n).Fine →
    (choiceLoop f msg l).Fine
  | m :: ms, n, hm, h => by
    simp only [choiceLoop]
    cases hf : f m with
    | ok => exact Res.fine_ok
    | err e =>
      dsimp only
      split
      · exact Res.fine_err ‹_›
      · rcases List.mem_cons.mp hm with rfl | hm
        · exact absurd (h e hf) ‹_›
        · exact choiceLoop_fine hm h
    | panic => exact fun e h => by cases h
    | fuel => exact fun e h => by cases h

theorem ItemFacts.choice_clash {y : Value} : ∀ {es : List ItemFacts} {e : ItemFacts}, e ∈ es → e.clash.Has y → (ItemFacts.choice es).clash.Has y
  | [a], e, he, h => by
    rcases List.mem_cons.mp he with rfl | he
    · exact h
    · cases he
  | a :: b :: t, e, he, h => by
    simp only [ItemFacts.choice, Look.has_or]
    rcases List.mem_cons.mp he with rfl | he
    · exact .inl (.inl h)
    · exact .inl (.inr (ItemFacts.choice_clash he h))

/-! ## Keys -/

theorem plain_loop {f : Node → Res Unit} {msg : String} : ∀ {l : List Node},
    (∀ n ∈ l, f n = .ok () ∨ ∃ m, f n = .err (.mismatch m)) →
    (choiceLoop f msg l = .ok () ∨ ∃ m, choiceLoop f msg l = .err (.mismatch m)) ∧
      ∀ n ∈ l, f n = .ok () → choiceLoop f msg l = .ok ()
  | [], _ => ⟨.inr ⟨msg, rfl⟩, fun _ h => by cases h⟩
  | a :: t, h => by
    obtain ⟨h1, h2⟩ := plain_loop (f := f) (msg := msg) (l := t) fun n hn => h n (List.mem_cons_of_mem _ hn)
    simp only [choiceLoop]
    rcases h a List.mem_cons_self with ha | ⟨m, ha⟩ <;> rw [ha]
    · exact ⟨.inl rfl, fun _ _ _ => rfl⟩
    · refine ⟨h1, fun n hn hf => ?_⟩
      rcases List.mem_cons.mp hn with rfl | hn
      · rw [ha] at hf; cases hf
      · exact h2 n hn hf

theorem prelude_plain (p : PreludeType) (v : Value) :
    validatePreludeType p v = .ok () ∨ ∃ m, validatePreludeType p v = .err (.mismatch m) := by
  unfold validatePreludeType
  split <;> (try split) <;> first | exact .inl rfl | exact .inr ⟨_, rfl⟩

mutual
theorem plainKey_val {env : Env} (v : Value) (c : Ctx) : ∀ n : Node, n.plainKey = true →
    ((lim env).val v n c = .ok () ∨ ∃ m, (lim env).val v n c = .err (.mismatch m)) ∧
      (Sat env c.scope n v → (lim env).val v n c = .ok ())
  | .literal l, _ => by
    rw [val_eq]
    simp only [valBody, validateLiteral]
    refine ⟨?_, fun h => ?_⟩
    · split
      · exact .inl rfl
      · exact .inr ⟨_, rfl⟩
    · cases h
      rw [if_pos]
      simp only [Value.beq, beq_iff_eq]
      exact (Value.cmp_eq _ _).mpr rfl
  | .prelude p, _ => by
    rw [val_eq]
    simp only [valBody]
    refine ⟨?_, fun h => ?_⟩
    · exact prelude_plain p v
    · cases h with
      | «prelude» _ h => exact prelude_complete h
  | .ctlRegexp p, _ => by
    rw [val_eq]
    simp only [valBody]
    refine ⟨?_, fun h => ?_⟩
    · cases v <;> simp only [validateControlRegexp] <;> (try split) <;>
        first | exact .inl rfl | exact .inr ⟨_, rfl⟩
    · cases h with
      | regexp _ h => simp only [validateControlRegexp, h, if_true]
  | .choice l, h => by
    simp only [Node.plainKey] at h
    have hl := plainKeys_val (env := env) v c l h
    rw [val_eq]
    simp only [valBody, validateChoice]
    obtain ⟨h1, h2⟩ := plain_loop (f := fun n => (lim env).val v n c) (msg := "choice of " ++ toString l.length)
      fun n hn => (hl n hn).1
    refine ⟨h1, fun h => ?_⟩
    cases h with
    | choice hm h => exact h2 _ hm ((hl _ hm).2 h)
theorem plainKeys_val {env : Env} (v : Value) (c : Ctx) : ∀ l : List Node, Node.plainKeys l = true → ∀ n ∈ l,
    ((lim env).val v n c = .ok () ∨ ∃ m, (lim env).val v n c = .err (.mismatch m)) ∧
      (Sat env c.scope n v → (lim env).val v n c = .ok ())
  | [], _, _, hn => by cases hn
  | a :: t, h, n, hn => by
    simp only [Node.plainKeys, Bool.and_eq_true] at h
    rcases List.mem_cons.mp hn with he | hn
    · rw [he]; exact plainKey_val v c a h.1
    · exact plainKeys_val v c t h.2 n hn
end

theorem search_finds {f : Value → Res Unit} {msg : String} : ∀ {m : VMap} {p : Value × Value}, p ∈ m → (∀ e, f p.1 ≠ .err e) →
    (∃ x v, mapSearchLoop f msg m = .ok (x, v) ∧ (x, v) ∈ m ∧ f x = .ok ()) ∨ mapSearchLoop f msg m = .panic ∨
      mapSearchLoop f msg m = .fuel
  | (k, v) :: t, p, hp, h => by
    simp only [mapSearchLoop]
    cases hf : f k with
    | ok => exact .inl ⟨k, v, rfl, List.mem_cons_self, hf⟩
    | err e =>
      rcases List.mem_cons.mp hp with rfl | hp
      · exact absurd hf (h e)
      · rcases search_finds (msg := msg) hp h with ⟨x, v, h1, h2, h3⟩ | h | h
        · exact .inl ⟨x, v, h1, List.mem_cons_of_mem _ h2, h3⟩
        · exact .inr (.inl h)
        · exact .inr (.inr h)
    | panic => exact .inr (.inl rfl)
    | fuel => exact .inr (.inr rfl)

/-- Two ways of splitting the same elements. -/
theorem perm_split {α : Type} : ∀ {C A B D : List α}, (A ++ B).Perm (C ++ D) →
    ∃ C1 C2 D1 D2, C.Perm (C1 ++ C2) ∧ D.Perm (D1 ++ D2) ∧ A.Perm (C1 ++ D1) ∧ B.Perm (C2 ++ D2)
  | [], A, B, D, h => ⟨[], [], A, B, .nil, h.symm, .refl _, .refl _⟩
  | x :: C, A, B, D, h => by
    have hx : x ∈ A ++ B := h.symm.subset List.mem_cons_self
    rcases List.mem_append.mp hx with hx | hx
    · obtain ⟨a1, a2, rfl⟩ := List.append_of_mem hx
      have h' : ((a1 ++ a2) ++ B).Perm (C ++ D) := by
        refine List.Perm.cons_inv (a := x) (List.Perm.trans ?_ h)
        exact (List.Perm.append_right B (List.perm_middle (a := x) (l₁ := a1) (l₂ := a2))).symm
      obtain ⟨C1, C2, D1, D2, h1, h2, h3, h4⟩ := perm_split h'
      exact ⟨x :: C1, C2, D1, D2, h1.cons x, h2, List.perm_middle.trans (h3.cons x), h4⟩
    · obtain ⟨b1, b2, rfl⟩ := List.append_of_mem hx
      have h' : (A ++ (b1 ++ b2)).Perm (C ++ D) := by
        refine List.Perm.cons_inv (a := x) (List.Perm.trans ?_ h)
        exact (List.perm_middle.symm.trans (List.Perm.append_left A List.perm_middle.symm))
      obtain ⟨C1, C2, D1, D2, h1, h2, h3, h4⟩ := perm_split h'
      exact ⟨C1, x :: C2, D1, D2, (h1.cons x).trans List.perm_middle.symm, h2, h3, List.perm_middle.trans (h4.cons x)⟩

/-- The keys of a map are different. -/
theorem keys_differ {m : VMap} (h : VMap.PW m) {a b : List (Value × Value)} (hp : (a ++ b).Perm m) {p q : Value × Value}
    (ha : p ∈ a) (hb : q ∈ b) : p.1 ≠ q.1 := by
  have h1 : m.Pairwise fun x y => x.1 ≠ y.1 := h.imp fun {x y} hlt he => by
    rw [he, (Value.cmp_eq _ _).mpr rfl] at hlt
    cases hlt
  have h2 : (a ++ b).Pairwise fun x y => x.1 ≠ y.1 := (hp.pairwise_iff fun h => Ne.symm h).mpr h1
  exact (List.pairwise_append.mp h2).2.2 p ha q hb

theorem Look.single_eq {A : Look} (h : A.single = true) {u v : Value} (hu : A.Has u) (hv : A.Has v) : u = v := by
  unfold Look.single at h
  split at h
  · obtain ⟨a, ha, hu⟩ := hu
    obtain ⟨b, hb, hv⟩ := hv
    rw [List.mem_singleton.mp ha] at hu
    rw [List.mem_singleton.mp hb] at hv
    exact Eq.trans hu (Eq.symm hv)
  · cases h

theorem MemberFacts.choice_held : ∀ es : List MemberFacts, (MemberFacts.choice es).held = (MemberFacts.choice es).keys
  | [] => rfl
  | [_] => rfl
  | _ :: _ :: _ => rfl

/-- What matching entries of a map has to achieve, if they describe `l`, their facts are `F`, and the working copy has the
pairs `rest` of theirs and `r` of others: the pairs of others stay, but for some that are grabbed. -/
def MatchFine (F : MemberFacts) (l : List Mark) (f : WMap → SRes WMap) : Prop :=
  ∀ (w : WMap) (k : Nat) (g rest r : List (Value × Value)), w.Inv k → (taken l).Perm (g ++ rest) → (∀ p ∈ g, ¬ F.held.Has p.1) →
    (rest ++ r).Perm w.map → ((F.copes = true ∧ ∀ k, .cut k ∈ l → ∀ p ∈ r, p.1 ≠ k.toValue) ∨ ∀ p ∈ r, ¬ F.keys.Has p.1) →
    (f w).Fine fun w' => ∃ g', r.Perm (g' ++ w'.map) ∧ ∀ p ∈ g', F.grab.Has p.1 ∧ F.keys.Has p.1

/-- What matching a map entry has to achieve. -/
def MItemFine (env : Env) (J : Forecast) (c : Ctx) (n : Node) (l : List Mark) : Prop :=
  MatchFine (n.member J) l fun w => (lim env).map n w c

theorem SRes.Fine.imp {σ : Type} {P Q : σ → Prop} {r : SRes σ} (h : r.Fine P) (hi : ∀ w, P w → Q w) : r.Fine Q := by
  cases r with
  | ok w => exact hi w h
  | err e w => exact h
  | panic => trivial
  | fuel => trivial

/-- Nothing is grabbed from pairs with other keys. -/
theorem MatchFine.off {F : MemberFacts} {l : List Mark} {f : WMap → SRes WMap} (h : MatchFine F l f) {w : WMap} {k : Nat}
    {r : List (Value × Value)} (hw : w.Inv k) (hm : (taken l ++ r).Perm w.map) (ho : ∀ p ∈ r, ¬ F.keys.Has p.1) :
    (f w).Fine fun w' => r.Perm w'.map := by
  refine (h w k [] (taken l) r hw (.refl _) (fun _ hp => by cases hp) hm (.inr ho)).imp ?_
  rintro w' ⟨g', h1, h2⟩
  cases g' with
  | nil => exact h1
  | cons p g' => exact absurd (h2 p List.mem_cons_self).2 (ho p (h1.symm.subset List.mem_cons_self))

theorem MatchFine.le {F F' : MemberFacts} {l : List Mark} {f : WMap → SRes WMap} (h : MatchFine F l f) (hle : F.le F' = true) :
    MatchFine F' l f := by
  obtain ⟨_, h1, _, h2, h3, h4⟩ := MemberFacts.le_spec hle
  intro w k g rest r hw ht hg hm ho
  refine (h w k g rest r hw ht (fun p hp hh => hg p hp (h4 _ hh)) hm
    (ho.imp (fun ho => ⟨h2 ho.1, ho.2⟩) fun ho p hp hh => ho p hp (h1 _ hh))).imp ?_
  rintro w' ⟨g', h5, h6⟩
  exact ⟨g', h5, fun p hp => ⟨h3 _ (h6 p hp).1, h1 _ (h6 p hp).2⟩⟩

/-- If every pair is held, none is missing. -/
theorem none_given {l : List Mark} {A : Look} {g rest : List (Value × Value)} (hk : ∀ p ∈ taken l, A.Has p.1)
    (ht : (taken l).Perm (g ++ rest)) (hg : ∀ p ∈ g, ¬ A.Has p.1) : g = [] := by
  cases g with
  | nil => rfl
  | cons p g => exact absurd (hk p (ht.symm.subset (by simp))) (hg p List.mem_cons_self)

section Main
variable {env : Env} {J : Forecast} (hl : ∀ s e, env.lookup s = .error e → e.isFatal = true) (hJ : J.Agrees env)
include hl hJ

/-! ## Arrays -/

theorem arrayValue_fine {n : Node} {v : Value} {ys : List Value} {w : WArr} {c : Ctx} (ha : w.array = v :: ys)
    (h : ((lim env).val v n c).Fine) : (validateArrayValue env (lim env) n w c).Fine fun w' => w'.array = ys := by
  unfold validateArrayValue
  rw [ha]
  dsimp only
  cases hr : (lim env).val v n c with
  | ok =>
    dsimp only
    unfold WArr.popFront
    rw [ha]
    dsimp only
    split <;> rfl
  | err e => exact h e hr
  | panic => trivial
  | fuel => trivial

theorem arrChoice_fine {msg : String} {w : WArr} {c : Ctx} {k : Nat} {xs ys : List Value} {n : Node}
    (hw : w.Inv k) (hc : c.scope.Clear J) (ha : w.array = xs ++ ys) (hx : (n.entry J).Fits xs)
    (h1 : (n.entry J).one = true → ∃ x, xs = [x])
    (h : ((lim env).arr n w c).Fine fun w' => w'.array = ys) : ∀ {l : List Node}, n ∈ l → (ItemFacts.choice (Node.entries J l)).ok = true →
    (∀ y t, ys = y :: t → ¬ (ItemFacts.choice (Node.entries J l)).clash.Has y) →
    (choiceLoopS (fun m w => (lim env).arr m w c) Err.isFatal msg l w).Fine fun w' => w'.array = ys := by
  have hit : ∀ t, (choiceLoopS (fun m w => (lim env).arr m w c) Err.isFatal msg (n :: t) w).Fine fun w' => w'.array = ys := by
    intro t
    simp only [choiceLoopS]
    cases hr : (lim env).arr n w c with
    | ok w' => rw [hr] at h; exact h
    | err e w' =>
      rw [hr] at h
      have h : e.isFatal = true := h
      dsimp only
      rw [if_pos h]
      exact h
    | panic => trivial
    | fuel => trivial
  intro l
  induction l with
  | nil => intro hm; cases hm
  | cons a t ih =>
    intro hm hok hy
    rcases List.mem_cons.mp hm with rfl | hm
    · exact hit t
    cases t with
    | nil => cases hm
    | cons b t =>
      have hmt : n.entry J ∈ Node.entries J (b :: t) := entry_mem hm
      simp only [Node.entries] at hmt
      simp only [Node.entries, ItemFacts.choice, Bool.and_eq_true, Bool.or_eq_true, Bool.not_eq_true'] at hok hy
      have hrest := fun hmt' => ih hm hmt' fun y t hyt hh => hy y t hyt (Look.has_or.mpr (.inl (Look.has_or.mpr (.inr hh))))
      rcases hok.2 with ⟨hoa, hor⟩ | hok2
      · obtain ⟨x, rfl⟩ := h1 (ItemFacts.choice_one hor _ hmt)
        have hs := (lim_calm hl hJ).one a w c k hw hc hok.1.1.1 hoa
        rw [choiceLoopS]
        cases hr : (lim env).arr a w c with
        | ok w' =>
          rw [hr] at hs
          obtain ⟨y, hy'⟩ := hs
          rw [ha] at hy'
          cases hy'
          exact rfl
        | err e w' =>
          rw [hr] at hs
          dsimp only
          split
          · assumption
          · rw [hs.1]
            exact hrest hok.1.1.2
        | panic => trivial
        | fuel => trivial
      have hfit := ItemFacts.choice_fits hmt hx hok.1.1.2
      have hoff : w.Off (a.entry J).first := by
        intro x t' hxt hh
        cases xs with
        | nil => exact hy x t' (by rw [← hxt, ha]; rfl) (Look.has_or.mpr (.inr (Look.has_when.mpr ⟨hfit, hh⟩)))
        | cons x' t'' =>
          rw [ha] at hxt
          cases hxt
          exact Look.apart_not hok2 hh hfit
      have hs := (lim_calm hl hJ).arr a w c k hw hc hok.1.1.1 hoff
      rw [choiceLoopS]
      cases hr : (lim env).arr a w c with
      | ok w' => rw [hr, hok.1.2] at hs; cases hs.2
      | err e w' =>
        rw [hr] at hs
        dsimp only
        split
        · assumption
        · rw [hs.1]
          exact hrest hok.1.1.2
      | panic => trivial
      | fuel => trivial

theorem arrayGroup_fine {ms : List Node} {w : WArr} {c : Ctx} {ys : List Value}
    (h : (seqLoopS (fun m w => (lim env).arr m w c) ms w.snapshot).Fine fun w' => w'.array = ys) :
    (validateArrayGroup (lim env) ms w c).Fine fun w' => w'.array = ys := by
  unfold validateArrayGroup
  cases hr : seqLoopS (fun m w => (lim env).arr m w c) ms w.snapshot with
  | ok w' =>
    rw [hr] at h
    dsimp only
    unfold WArr.commit
    split
    · trivial
    · exact h
  | err e w' =>
    rw [hr] at h
    dsimp only
    unfold WArr.rewind
    cases w'.snaps with
    | nil => trivial
    | cons _ _ => exact h
  | panic => trivial
  | fuel => trivial

/-! ## Maps -/

/-- What a pair of a repeated entry has to satisfy. -/
def PairFine (env : Env) (c : Ctx) (key t : Node) (p : Value × Value) : Prop :=
  Sat env c.scope key p.1 ∧ (p.1.WF → ∀ e, (lim env).val p.1 key c ≠ .err e) ∧ (p.2.WF → ((lim env).val p.2 t c).Fine)

theorem keyvalue_fine {key t : Node} {cut : Bool} {w : WMap} {c : Ctx} {k : Nat} {l r : List (Value × Value)}
    (hw : w.Inv k) (hc : c.scope.Clear J) (hm : (l ++ r).Perm w.map) (hk : key.clear J = true) (hne : l ≠ [])
    (hp : ∀ p ∈ l, PairFine env c key t p) (ho : ∀ p ∈ r, ¬ (key.look J).Has p.1) :
    (validateMapKeyvalue env (lim env) key t cut w c).Fine fun w' => ∃ p l', l.Perm (p :: l') ∧ (l' ++ r).Perm w'.map := by
  obtain ⟨q, hq⟩ := List.exists_mem_of_ne_nil l hne
  have hqm : q ∈ w.map := hm.subset (List.mem_append_left _ hq)
  have found : (∃ x v, validateMapKey env (lim env) key w c = .ok (x, v) ∧ (x, v) ∈ l) ∨
      validateMapKey env (lim env) key w c = .panic ∨ validateMapKey env (lim env) key w c = .fuel := by
    by_cases hlit : ∃ l0, key = .literal l0
    · obtain ⟨l0, rfl⟩ := hlit
      have h1 : q.1 = l0.toValue := by
        have := (hp q hq).1
        generalize q.1 = x at this
        cases this
        rfl
      have hg : VMap.get w.map l0.toValue = some q.2 := by rw [← h1]; exact (VMap.get_some hw.1).mpr hqm
      simp only [validateMapKey, mapSearchLiteral, hg]
      exact .inl ⟨_, _, rfl, by rw [← h1]; exact hq⟩
    · have hs : validateMapKey env (lim env) key w c = mapSearch env (lim env) key w c := by
        cases key <;> first | rfl | exact absurd ⟨_, rfl⟩ hlit
      rw [hs]
      rcases search_finds (f := fun x => (lim env).val x key c) (msg := "map{" ++ key.display env.fmtF64 ++ "}") hqm
        ((hp q hq).2.1 (hw.2.1 _ hqm).1) with ⟨x, v, h1, h2, h3⟩ | h | h
      · refine .inl ⟨x, v, h1, ?_⟩
        rcases List.mem_append.mp (hm.symm.subset h2) with h | h
        · exact h
        · exact absurd ((lim_calm hl hJ).val x key c hc hk h3) (ho _ h)
      · exact .inr (.inl h)
      · exact .inr (.inr h)
  unfold validateMapKeyvalue
  rcases found with ⟨x, v, h, hxl⟩ | h | h <;> rw [h]
  · dsimp only
    have hxm : (x, v) ∈ w.map := hm.subset (List.mem_append_left _ hxl)
    have hv := (hp _ hxl).2.2 (hw.2.1 _ hxm).2
    cases hr : (lim env).val v t c with
    | ok =>
      dsimp only
      have hs := (remove_spec hl (Judgement.blank_agrees env) (lim_good (plainErr_ok hl)) (lim_sound hl (Judgement.blank_agrees env)) hw hxm).1
      cases hrem : w.remove x with
      | ok w' =>
        rw [hrem] at hs
        have hs : w.map.Perm ((x, v) :: w'.map) := hs.1.1
        obtain ⟨l1, l2, rfl⟩ := List.append_of_mem hxl
        refine ⟨(x, v), l1 ++ l2, List.perm_middle, ?_⟩
        have : ((x, v) :: ((l1 ++ l2) ++ r)).Perm ((x, v) :: w'.map) :=
          (List.Perm.append_right r (List.perm_middle (a := (x, v)) (l₁ := l1) (l₂ := l2)).symm).trans (hm.trans hs)
        exact this.cons_inv
      | err e w' =>
        unfold WMap.remove at hrem
        split at hrem
        · cases hrem
        · split at hrem <;> cases hrem
      | panic => trivial
      | fuel => trivial
    | err e =>
      have he := hv e hr
      dsimp only
      split
      · cases he
      · exact he
    | panic => trivial
    | fuel => trivial
  · trivial
  · trivial

/-- A key without a cut: a pair with a key that looks right is taken, or nothing happens. -/
theorem keyvalue_loose {key t : Node} {w : WMap} {c : Ctx} {k : Nat} (hw : w.Inv k) (hc : c.scope.Clear J)
    (hk : key.clear J = true) : match validateMapKeyvalue env (lim env) key t false w c with
      | .ok w' => ∃ p, (key.look J).Has p.1 ∧ w.map.Perm (p :: w'.map)
      | .err e w' => w' = w ∧ PlainErr e
      | _ => True := by
  have found : (∃ x v, validateMapKey env (lim env) key w c = .ok (x, v) ∧ (x, v) ∈ w.map ∧ (key.look J).Has x) ∨
      (∃ m, validateMapKey env (lim env) key w c = .err (.mismatch m)) ∨
      validateMapKey env (lim env) key w c = .panic ∨ validateMapKey env (lim env) key w c = .fuel := by
    by_cases hlit : ∃ l0, key = .literal l0
    · obtain ⟨l0, rfl⟩ := hlit
      simp only [validateMapKey, mapSearchLiteral]
      cases hg : VMap.get w.map l0.toValue with
      | none => exact .inr (.inl ⟨_, rfl⟩)
      | some v => exact .inl ⟨_, _, rfl, VMap.get_mem hg, by simp [Node.look, Look.Has, Atom.Has]⟩
    · have hs : validateMapKey env (lim env) key w c = mapSearch env (lim env) key w c := by
        cases key <;> first | rfl | exact absurd ⟨_, rfl⟩ hlit
      rw [hs]
      have loop : ∀ {msg : String} {m : VMap}, (∃ x v, mapSearchLoop (fun x => (lim env).val x key c) msg m = .ok (x, v) ∧ (x, v) ∈ m ∧
          (key.look J).Has x) ∨ (∃ e, mapSearchLoop (fun x => (lim env).val x key c) msg m = .err (.mismatch e)) ∨
          mapSearchLoop (fun x => (lim env).val x key c) msg m = .panic ∨ mapSearchLoop (fun x => (lim env).val x key c) msg m = .fuel := by
        intro msg m
        induction m with
        | nil => exact .inr (.inl ⟨_, rfl⟩)
        | cons p m ih =>
          simp only [mapSearchLoop]
          cases hf : (lim env).val p.1 key c with
          | ok => exact .inl ⟨p.1, p.2, rfl, List.mem_cons_self, (lim_calm hl hJ).val _ key c hc hk hf⟩
          | err e =>
            rcases ih with ⟨x, v, h1, h2, h3⟩ | h
            · exact .inl ⟨x, v, h1, List.mem_cons_of_mem _ h2, h3⟩
            · exact .inr h
          | panic => exact .inr (.inr (.inl rfl))
          | fuel => exact .inr (.inr (.inr rfl))
      exact loop
  unfold validateMapKeyvalue
  rcases found with ⟨x, v, h, hxm, hx⟩ | ⟨m, h⟩ | h | h <;> rw [h]
  · dsimp only
    have hg := (lim_good (plainErr_ok hl)).val v t c (hw.2.1 _ hxm).2
    cases hr : (lim env).val v t c with
    | ok =>
      dsimp only
      have hs := (remove_spec hl (Judgement.blank_agrees env) (lim_good (plainErr_ok hl)) (lim_sound hl (Judgement.blank_agrees env)) hw hxm).1
      cases hrem : w.remove x with
      | ok w' =>
        rw [hrem] at hs
        exact ⟨(x, v), hx, hs.1.1⟩
      | err e w' =>
        unfold WMap.remove at hrem
        split at hrem
        · cases hrem
        · split at hrem <;> cases hrem
      | panic => trivial
      | fuel => trivial
    | err e =>
      rw [hr] at hg
      exact ⟨rfl, hg⟩
    | panic => trivial
    | fuel => trivial
  · exact ⟨rfl, plain_mismatch _⟩
  · trivial
  · trivial

/-- An optional key without a cut, for which there is at most one pair. -/
theorem looseLoop_fine {key t : Node} {c : Ctx} {k : Nat} {up : Nat} {msg : String} (hc : c.scope.Clear J) (hk : key.clear J = true) :
    ∀ (j count : Nat) (w : WMap), w.Inv k →
    (occurLoopS (fun w => (lim env).map (.keyValue key t false) w c) 0 up msg j count w).Fine fun w' =>
      ∃ g, w.map.Perm (g ++ w'.map) ∧ ∀ p ∈ g, (key.look J).Has p.1
  | 0, _, _, _ => trivial
  | j + 1, count, w, hw => by
    simp only [occurLoopS]
    have hf := keyvalue_loose hl hJ (t := t) hw hc hk
    have hg := (lim_good (plainErr_ok hl)).map (.keyValue key t false) w c k hw
    rw [map_eq] at hg ⊢
    simp only [mapBody] at hg ⊢
    cases hr : validateMapKeyvalue env (lim env) key t false w c with
    | ok w' =>
      rw [hr] at hf hg
      obtain ⟨p, hp, hm⟩ := hf
      dsimp only
      split
      · rw [if_neg (by omega)]
        exact ⟨[p], hm, fun q hq => by rw [List.mem_singleton.mp hq]; exact hp⟩
      · have ih := looseLoop_fine hc hk (t := t) (up := up) (msg := msg) j (count + 1) w' hg
        cases hr' : occurLoopS (fun w => (lim env).map (.keyValue key t false) w c) 0 up msg j (count + 1) w' with
        | ok w'' =>
          rw [hr'] at ih
          obtain ⟨g, h1, h2⟩ := ih
          refine ⟨p :: g, hm.trans (h1.cons p), fun q hq => ?_⟩
          rcases List.mem_cons.mp hq with rfl | hq
          · exact hp
          · exact h2 q hq
        | err e w'' => rw [hr'] at ih; exact ih
        | panic => trivial
        | fuel => trivial
    | err e w' =>
      rw [hr] at hf
      obtain ⟨rfl, he⟩ := hf
      dsimp only
      split
      · rw [if_neg (by omega)]
        exact ⟨[], .refl _, fun p hp => by cases hp⟩
      · cases hf : e.isFatal with
        | true => exact hf
        | false => exact absurd (he hf) ‹_›
    | panic => trivial
    | fuel => trivial

theorem pairLoop_fine {key t : Node} {cut : Bool} {c : Ctx} {k : Nat} {r : List (Value × Value)} {lo up : Nat} {msg : String}
    (hc : c.scope.Clear J) (hk : key.clear J = true) (hn : t.clear J = true) (ho : ∀ p ∈ r, ¬ (key.look J).Has p.1) :
    ∀ (j count : Nat) (w : WMap) (l : List (Value × Value)), w.Inv k → (l ++ r).Perm w.map →
    (∀ p ∈ l, PairFine env c key t p) → lo ≤ count + l.length → count + l.length ≤ up →
    (occurLoopS (fun w => (lim env).map (.keyValue key t cut) w c) lo up msg j count w).Fine fun w' => r.Perm w'.map
  | 0, _, _, _, _, _, _, _, _ => trivial
  | j + 1, count, w, l, hw, hm, hp, h1, h2 => by
    simp only [occurLoopS]
    cases l with
    | nil =>
      have hmem : (Node.member J (.keyValue key t cut)).ok = true := by simp only [Node.member, hk, hn, Bool.and_self]
      have hs := (lim_calm hl hJ).map (.keyValue key t cut) w c hc hmem fun p hp' => by
        simp only [Node.member]
        exact ho p (hm.symm.subset hp')
      cases hr : (lim env).map (.keyValue key t cut) w c with
      | ok w' =>
        rw [hr] at hs
        simp only [Node.member] at hs
        cases hs.2
      | err e w' =>
        rw [hr] at hs
        obtain ⟨rfl, he⟩ := hs
        dsimp only
        simp only [List.length_nil, Nat.add_zero] at h1
        split
        · rw [if_neg (by omega)]
          exact hm
        · cases hf : e.isFatal with
          | true => exact hf
          | false => exact absurd (he hf) ‹_›
      | panic => trivial
      | fuel => trivial
    | cons q l =>
      have hf := keyvalue_fine hl hJ (cut := cut) hw hc hm hk (by simp) hp ho
      have hg := (lim_good (plainErr_ok hl)).map (.keyValue key t cut) w c k hw
      rw [map_eq] at hg ⊢
      simp only [mapBody] at hg ⊢
      cases hr : validateMapKeyvalue env (lim env) key t cut w c with
      | ok w' =>
        rw [hr] at hf hg
        obtain ⟨p, l', hpl, hm'⟩ := hf
        have hlen : l.length + 1 = l'.length + 1 := by simpa using hpl.length_eq
        simp only [List.length_cons] at h1 h2
        dsimp only
        split
        · rw [if_neg (by omega)]
          have : l' = [] := List.length_eq_zero_iff.mp (by omega)
          rw [this] at hm'
          exact hm'
        · exact pairLoop_fine hc hk hn ho j (count + 1) w' l' hg hm'
            (fun p' hp' => hp p' (hpl.symm.subset (List.mem_cons_of_mem _ hp'))) (by omega) (by omega)
      | err e w' =>
        rw [hr] at hf
        have hf : e.isFatal = true := hf
        dsimp only
        rw [if_neg]
        · exact hf
        · cases e <;> simp [Err.isFatal, Err.isMismatch] at hf ⊢
      | panic => trivial
      | fuel => trivial

theorem mapChoice_fine {msg : String} {w : WMap} {c : Ctx} {l r : List (Value × Value)} {Q : WMap → Prop} {n : Node}
    (hc : c.scope.Clear J) (hm : (l ++ r).Perm w.map) (hx : ∀ p ∈ l, (n.member J).keys.Has p.1)
    (h : ((lim env).map n w c).Fine Q) : ∀ {os : List Node}, n ∈ os → (MemberFacts.choice (Node.members J os)).ok = true →
    (∀ p ∈ r, ¬ (MemberFacts.choice (Node.members J os)).keys.Has p.1) →
    (choiceLoopS (fun m w => (lim env).map m w c) (fun e => !e.isMismatch) msg os w).Fine Q := by
  have hit : ∀ t, (choiceLoopS (fun m w => (lim env).map m w c) (fun e => !e.isMismatch) msg (n :: t) w).Fine Q := by
    intro t
    simp only [choiceLoopS]
    cases hr : (lim env).map n w c with
    | ok w' => rw [hr] at h; exact h
    | err e w' =>
      rw [hr] at h
      have h : e.isFatal = true := h
      dsimp only
      rw [if_pos]
      · exact h
      · cases e <;> simp [Err.isFatal, Err.isMismatch] at h ⊢
    | panic => trivial
    | fuel => trivial
  intro os
  induction os with
  | nil => intro hm; cases hm
  | cons a t ih =>
    intro hmem hok hr'
    rcases List.mem_cons.mp hmem with rfl | hmem
    · exact hit t
    cases t with
    | nil => cases hmem
    | cons b t =>
      have hmt : n.member J ∈ Node.members J (b :: t) := member_mem hmem
      simp only [Node.members] at hmt
      simp only [Node.members, MemberFacts.choice, Bool.and_eq_true, Bool.not_eq_true'] at hok hr'
      have hoff : w.Off (a.member J).keys := by
        intro p hp hh
        rcases List.mem_append.mp (hm.symm.subset hp) with h | h
        · exact Look.apart_not hok.2 hh (MemberFacts.choice_keys hmt (hx p h))
        · exact hr' p h (Look.has_or.mpr (.inl hh))
      have hs := (lim_calm hl hJ).map a w c hc hok.1.1.1 hoff
      rw [choiceLoopS]
      cases hr : (lim env).map a w c with
      | ok w' => rw [hr, hok.1.2] at hs; cases hs.2
      | err e w' =>
        rw [hr] at hs
        obtain ⟨hw', he⟩ := hs
        dsimp only
        split
        · rename_i hnm
          cases hf : e.isFatal with
          | true => exact hf
          | false => rw [he hf] at hnm; cases hnm
        · rw [hw']
          exact ih hmem hok.1.1.2 fun p hp hh => hr' p hp (Look.has_or.mpr (.inr hh))
      | panic => trivial
      | fuel => trivial

theorem mapGroup_fine {ms : List Node} {w : WMap} {c : Ctx} {Q : VMap → Prop}
    (h : (seqLoopS (fun m w => (lim env).map m w c) ms w.snapshot).Fine fun w' => Q w'.map) :
    (validateMapGroup (lim env) ms w c).Fine fun w' => Q w'.map := by
  unfold validateMapGroup
  cases hr : seqLoopS (fun m w => (lim env).map m w c) ms w.snapshot with
  | ok w' =>
    rw [hr] at h
    dsimp only
    unfold WMap.commit
    split
    · trivial
    · exact h
  | err e w' =>
    rw [hr] at h
    have h : e.isFatal = true := h
    dsimp only
    unfold WMap.rewind
    cases w'.snaps with
    | nil => trivial
    | cons _ _ => cases e <;> first | exact h | cases h
  | panic => trivial
  | fuel => trivial

/-- A repetition of at most one. -/
theorem mapOnce_fine {n : Node} {c : Ctx} {k : Nat} {l r : List (Value × Value)} {lo up : Nat} {msg : String} {w : WMap} {m : Nat}
    (hw : w.Inv k) (hm : (l ++ r).Perm w.map) (hup : up ≤ 1) (h1 : lo ≤ m) (h2 : m ≤ up)
    (h0 : m = 0 → l = [] ∧ ((lim env).map n w c).Still w (n.member J).empty)
    (hone : m = 1 → ((lim env).map n w c).Fine fun w' => r.Perm w'.map) (j : Nat) :
    (occurLoopS (fun w => (lim env).map n w c) lo up msg j 0 w).Fine fun w' => r.Perm w'.map := by
  cases j with
  | zero => trivial
  | succ j =>
    simp only [occurLoopS]
    cases hr : (lim env).map n w c with
    | ok w' =>
      dsimp only
      rw [if_pos (by omega)]
      by_cases hm0 : m = 0
      · obtain ⟨rfl, hs⟩ := h0 hm0
        rw [hr] at hs
        rw [if_neg (by omega), hs.1]
        exact hm
      · rw [if_neg (by omega)]
        have := hone (by omega)
        rw [hr] at this
        exact this
    | err e w' =>
      dsimp only
      by_cases hm0 : m = 0
      · obtain ⟨rfl, hs⟩ := h0 hm0
        rw [hr] at hs
        obtain ⟨rfl, he⟩ := hs
        split
        · rw [if_neg (by omega)]
          exact hm
        · cases hf : e.isFatal with
          | true => exact hf
          | false => exact absurd (he hf) ‹_›
      · have := hone (by omega)
        rw [hr] at this
        have this : e.isFatal = true := this
        rw [if_neg]
        · exact this
        · cases e <;> simp [Err.isFatal, Err.isMismatch] at this ⊢
    | panic => trivial
    | fuel => trivial

/-- What is known of a single pair. -/
def OnePair (env : Env) (c : Ctx) (n : Node) (l : List Mark) : Prop :=
  match n with
  | .keyValue key t _ => (taken l).length = 1 ∧ ∀ p ∈ taken l, PairFine env c key t p
  | _ => True

/-- What is known of repeated pairs. -/
def Pairs (env : Env) (c : Ctx) (n : Node) (k : Nat) (l : List Mark) : Prop :=
  match n with
  | .keyValue key t _ => (taken l).length = k ∧ ∀ p ∈ taken l, PairFine env c key t p
  | _ => True

theorem pairs_cons {c : Ctx} {n : Node} {k : Nat} {l l' : List Mark} (h : OnePair env c n l) (h' : Pairs env c n k l') :
    Pairs env c n (k + 1) (l ++ l') := by
  cases n <;> first | trivial | skip
  refine ⟨by rw [taken_append, List.length_append, h.1, h'.1]; omega, fun p hp => ?_⟩
  rw [taken_append] at hp
  rcases List.mem_append.mp hp with hp | hp
  · exact h.2 p hp
  · exact h'.2 p hp

theorem taken_keys {l : List Mark} {A : Look} (h : ∀ m ∈ l, A.Has m.key) : ∀ p ∈ taken l, A.Has p.1 := fun _ hp =>
  h _ (mem_taken.mp hp)

theorem cutKey_keyValue {n : Node} (h : n.cutKey = true) : ∃ k t, n = .keyValue (.literal k) t true := by
  unfold Node.cutKey at h
  split at h
  · exact ⟨_, _, rfl⟩
  · cases h

theorem leaf_keyValue {n : Node} (h : (n.member J).leaf = true) (hok : (n.member J).ok = true) :
    ∃ key t cut, n = .keyValue key t cut := by
  cases n <;> simp only [Node.member, Bool.false_eq_true] at h hok
  case keyValue key t cut => exact ⟨_, _, _, rfl⟩
  case choice l =>
    exfalso
    generalize Node.members J l = es at h
    cases es with
    | nil => cases h
    | cons a t => cases t <;> cases h
  case group l =>
    exfalso
    generalize Node.members J l = es at h
    cases es <;> cases h
  case occur o n => cases h

theorem mapOccur_fine {o : OccurLimit} {n : Node} {c : Ctx} {m : Nat} {l : List Mark}
    (hc : c.scope.Clear J) (hn : (Node.member J (.occur o n)).ok = true) (hk : Count o m) (hkeys : ∀ p ∈ taken l, (n.member J).keys.Has p.1)
    (h0 : m = 0 → taken l = []) (h1 : m = 1 → MItemFine env J c n l) (hp : Pairs env c n m l) :
    MItemFine env J c (.occur o n) (l ++ n.cuts) := by
  intro w k g rest r hw ht hg hm ho
  simp only [Node.member, MemberFacts.occur, Look.has_when, Bool.not_eq_true', Bool.or_eq_true, Bool.and_eq_true] at ho hg ⊢
  simp only [Node.member, MemberFacts.occur, Bool.and_eq_true, Bool.or_eq_true, decide_eq_true_eq] at hn
  obtain ⟨hlo, hup⟩ := limits_of_count hk
  rw [taken_append, cuts_taken, List.append_nil] at ht
  rw [map_eq]
  simp only [mapBody, validateMapOccur]
  have still : ∀ {f : SRes WMap}, (f.Fine fun w' => r.Perm w'.map) → f.Fine fun w' =>
      ∃ g', r.Perm (g' ++ w'.map) ∧ ∀ p ∈ g', (n.cutKey = false ∧ (n.member J).keys.Has p.1) ∧ (n.member J).keys.Has p.1 :=
    fun h => h.imp fun w' h => ⟨[], h, fun p hp => by cases hp⟩
  by_cases hleaf : (n.member J).leaf = true
  · obtain ⟨key, t, cut, rfl⟩ := leaf_keyValue hl hJ hleaf hn.1
    have hok := hn.1
    simp only [Node.member, Bool.and_eq_true] at hok
    obtain ⟨hlen, hp⟩ := hp
    have hlen' := ht.length_eq
    rw [List.length_append, hlen] at hlen'
    have hp' : ∀ p ∈ rest, PairFine env c key t p := fun p hp' => hp p (ht.symm.subset (List.mem_append_right _ hp'))
    have hlo' : o.limits.1 ≤ 0 + rest.length := by
      by_cases hz : o.limits.1 = 0
      · omega
      · have : g = [] := none_given hkeys ht fun p hp' hh => hg p hp' ⟨by simp [hz], hh⟩
        rw [this] at hlen'
        simp only [List.length_nil] at hlen'
        omega
    have off : (∀ p ∈ r, ¬ (key.look J).Has p.1) → _ := fun ho =>
      still (pairLoop_fine hl hJ (cut := cut) (lo := o.limits.1) (up := o.limits.2)
        (msg := "map{" ++ occurDisplay env.fmtF64 o (.keyValue key t cut) ++ "}]") hc hok.1 hok.2 ho (o.limits.2 + 1) 0 w _ hw hm hp' hlo' (by omega))
    rcases ho with ⟨hs | hs, ho⟩ | ho
    · obtain ⟨k', t', hkv⟩ := cutKey_keyValue hl hJ hs
      cases hkv
      refine off ?_
      rintro p hp' ⟨a, ha, hh⟩
      rw [List.mem_singleton.mp ha] at hh
      exact ho k' (List.mem_append_right _ (List.mem_singleton.mpr rfl)) p hp' hh
    · obtain ⟨⟨⟨hcut, _⟩, hsingle⟩, hz⟩ := hs
      have hcut : cut = false := by cases cut <;> first | rfl | cases hcut
      subst hcut
      simp only [Node.member] at hsingle
      simp only [beq_iff_eq] at hz
      by_cases hoff : ∃ p ∈ r, (key.look J).Has p.1
      · obtain ⟨p, hpr, hpk⟩ := hoff
        have hrest : rest = [] := by
          cases rest with
          | nil => rfl
          | cons q rest =>
            refine absurd (Look.single_eq hsingle ?_ hpk) (keys_differ hw.1 hm List.mem_cons_self hpr)
            exact hkeys q (ht.symm.subset (List.mem_append_right _ List.mem_cons_self))
        rw [hrest] at hm
        rw [hz]
        refine (looseLoop_fine hl hJ hc hok.1 _ 0 w hw).imp ?_
        rintro w' ⟨g', h1, h2⟩
        exact ⟨g', hm.trans h1, fun p hp' => ⟨⟨by cases key <;> rfl, h2 p hp'⟩, h2 p hp'⟩⟩
      · exact off fun p hp' hh => hoff ⟨p, hp', hh⟩
    · exact off ho
  · have ho := ho.resolve_left fun h => by
      rcases h.1 with h | h
      · obtain ⟨k', t', hkv⟩ := cutKey_keyValue hl hJ h
        rw [hkv] at hleaf
        exact hleaf rfl
      · exact hleaf h.1.1.2
    have hgn : g = [] := none_given hkeys ht fun p hp' hh => hg p hp' ⟨by simp [hleaf], hh⟩
    rw [hgn, List.nil_append] at ht
    have hm' : (taken l ++ r).Perm w.map := (List.Perm.append_right r ht).trans hm
    refine still (mapOnce_fine hl hJ hw hm' (hn.2.resolve_left hleaf) hlo hup (fun hm0 => ?_)
      (fun hm1 => (h1 hm1).off hw hm' ho) _)
    have := h0 hm0
    refine ⟨this, (lim_calm hl hJ).map n w c hc hn.1 fun p hp' => ?_⟩
    rw [this] at hm'
    exact ho p (hm'.symm.subset hp')

variable {S : Purpose → Node → Ctx → Nat → Prop} (hS : Guard env S)
include hS

mutual
theorem Sat.complete {sc : Scope} {n : Node} {v : Value} (h : Sat env sc n v) (c : Ctx) (hsc : c.scope = sc) (hc : c.scope.Clear J)
    (hn : n.clear J = true) (hv : v.WF) {i : Nat} (hg : S .type n c i) (hh : v.height ≤ i) : ((lim env).val v n c).Fine :=
  match h with
  | .literal _ l => by
    rw [(plainKey_val l.toValue c (.literal l) rfl).2 (.literal _ l)]
    exact Res.fine_ok
  | .prelude _ h1 => by
    rw [(plainKey_val _ c (.prelude _) rfl).2 (.prelude _ h1)]
    exact Res.fine_ok
  | .choice hm h' => by
    simp only [Node.clear] at hn
    rw [val_eq]
    exact choiceLoop_fine hm (Sat.complete h' c hsc hc (clears_mem hn _ hm) hv (hS.choice hg hm) hh)
  | .map (m := m) h1 h3 h2 => by
    simp only [Node.clear] at hn
    rw [val_eq]
    simp only [valBody, validateMap]
    simp only [Value.height] at hh
    obtain ⟨i, rfl⟩ : ∃ j, i = j + 1 := ⟨i - 1, by omega⟩
    have := (MSeq.complete h1 h3 c hsc hc hn (fun m hm => hS.map hg hm) (fun p hp => by
      have := Value.height_pair (h2.subset hp)
      exact ⟨by omega, by omega⟩)).off (w := WMap.new m) (k := 0) (r := [])
      ⟨(VMap.sorted_iff m).mp hv.1, (Value.WFMap_iff m).mp hv.2, by simp [WMap.new], rfl⟩
      (by rw [List.append_nil]; exact h2) (fun p hp => by cases hp)
    split
    · rename_i w hr
      rw [hr] at this
      have : w.map = [] := (List.nil_perm.mp this)
      rw [this]
      exact Res.fine_ok
    · rename_i e w hr
      rw [hr] at this
      have this : e.isFatal = true := this
      refine Res.fine_err ?_
      cases e <;> first | exact this | cases this
    · exact fun e h => by cases h
    · exact fun e h => by cases h
  | .array (xs := xs) h1 => by
    simp only [Node.clear] at hn
    rw [val_eq]
    simp only [valBody, validateArray]
    simp only [Value.height] at hh
    obtain ⟨i, rfl⟩ : ∃ j, i = j + 1 := ⟨i - 1, by omega⟩
    have := Seq.complete h1 c hsc hc hn (fun m hm => hS.array hg hm) (fun x hx => by
      have := Value.height_mem hx
      omega) (WArr.new xs) 0 [] ⟨(Value.WFArr_iff xs).mp hv, by simp [WArr.new], rfl⟩
      (by rw [List.append_nil]; rfl) (fun y t h => by cases h)
    split
    · rename_i w hr
      rw [hr] at this
      have this : w.array = [] := this
      rw [this]
      exact Res.fine_ok
    · rename_i e w hr
      rw [hr] at this
      exact Res.fine_err this
    · exact fun e h => by cases h
    · exact fun e h => by cases h
  | .rule hr h' => by
    simp only [Node.clear, Bool.and_eq_true] at hn
    rw [val_eq]
    simp only [valBody, validateRule]
    rw [← hsc] at hr
    rcases look_complete hr with ⟨c', hlook, hc'⟩ | ⟨e, hlook, he⟩ <;> rw [hlook]
    · obtain ⟨hcl, ha | ⟨d, hd', hd⟩⟩ := resolves_clear hJ hc hn.2 hr
      · exact Sat.complete h' c' hc' (hc' ▸ hcl) ha.1.1 hv (hS.rule (.inl rfl) hg hlook) hh
      · have := (hd.type hn.1).1
        rw [hd'] at this
        exact Sat.complete h' c' hc' (hc' ▸ hcl) this hv (hS.rule (.inl rfl) hg hlook) hh
    · exact Res.fine_err he
  | .group h' => by
    simp only [Node.clear, Node.clears, Bool.and_true] at hn
    rw [val_eq]
    exact Sat.complete h' c hsc hc hn hv (hS.group hg) hh
  | .range h1 h2 h3 => rangeNode_complete (hsc ▸ .range h1 h2 h3)
  | .compare h1 h2 h3 h4 => ctl_complete (hsc ▸ .compare h1 h2 h3 h4)
  | .size h1 h2 h3 => ctl_complete (hsc ▸ .size h1 h2 h3)
  | .regexp (p := p) (t := t) _ h1 => by
    rw [(plainKey_val (.text t) c (.ctlRegexp p) rfl).2 (.regexp _ h1)]
    exact Res.fine_ok
  | .cbor h1 h2 h3 => by
    simp only [Node.clear] at hn
    rw [val_eq]
    have := (cbor_ok _ _).mpr h2
    simp only [valBody, validateControlCbor, h1, this]
    exact Sat.complete h3 c hsc hc hn (Cbor.toValue_WF _ _ this) (hS.cbor hg _) (Nat.le_refl _)
  | .choiceify h' => by
    simp only [Node.clear] at hn
    rw [val_eq]
    exact OneOf.complete h' c hsc hc hn hv (hS.choiceify hg) hh
  | .choiceifyInline hm h' => by
    simp only [Node.clear] at hn
    rw [val_eq]
    exact choiceLoop_fine hm (Alt.complete h' c hsc hc (clearAlts_mem hn _ hm) hv (hS.choiceifyInline hg hm) hh)
theorem Alt.complete {sc : Scope} {n : Node} {v : Value} (h : Alt env sc n v) (c : Ctx) (hsc : c.scope = sc) (hc : c.scope.Clear J)
    (hn : n.clearAlt J = true) (hv : v.WF) {i : Nat} (hg : S .pickItem n c i) (hh : v.height ≤ i) : (choiceifyItem (lim env) v c n).Fine :=
  match h with
  | .keyValue _ _ h' => by
    simp only [Node.clearAlt] at hn
    exact Sat.complete h' c hsc hc hn hv (hS.pickKey hg) hh
  | .rule h' => by
    simp only [Node.clearAlt] at hn
    exact OneOf.complete h' c hsc hc hn hv (hS.pickRule hg) hh
  | .other (m := m) hk hr h' => by
    have hn' : m.clear J = true := by
      cases m <;> first | exact absurd rfl (hk _ _ _) | exact absurd rfl (hr _ _) | (simp only [Node.clearAlt, Node.clear] at hn ⊢ <;> exact hn) | simp only [Node.clear]
    have := Sat.complete h' c hsc hc hn' hv (hS.pickOther hk hr hg) hh
    cases m <;> first | exact absurd rfl (hk _ _ _) | exact absurd rfl (hr _ _) | exact this
theorem OneOf.complete {sc : Scope} {s : String} {as : List Node} {v : Value} (h : OneOf env sc s as v) (c : Ctx) (hsc : c.scope = sc)
    (hc : c.scope.Clear J) (hn : ((J s).alt && Node.clearArgs J as) = true) (hv : v.WF) {i : Nat} (hg : S .pick (.rule s as) c i) (hh : v.height ≤ i) : ((lim env).chf s as v c).Fine :=
  match h with
  | .group hr hm h' => by
    simp only [Bool.and_eq_true] at hn
    rw [chf_eq]
    simp only [chfBody]
    rw [← hsc] at hr
    rcases look_complete hr with ⟨c', hlook, hc'⟩ | ⟨e, hlook, he⟩ <;> rw [hlook]
    · obtain ⟨hcl, ha | ⟨d, hd', hd⟩⟩ := resolves_clear hJ hc hn.2 hr
      · rw [ha.2.2.2.1] at hn; cases hn.1
      · have := hd.alt hn.1
        rw [hd'] at this
        exact choiceLoop_fine hm (Alt.complete h' c' hc' (hc' ▸ hcl) (clearAlts_mem this _ hm) hv
          (hS.pickGroup (hS.rule (.inr (.inr (.inr rfl))) hg hlook) hm) hh)
    · exact Res.fine_err he
  | .rule hr h' => by
    simp only [Bool.and_eq_true] at hn
    rw [chf_eq]
    simp only [chfBody]
    rw [← hsc] at hr
    rcases look_complete hr with ⟨c', hlook, hc'⟩ | ⟨e, hlook, he⟩ <;> rw [hlook]
    · obtain ⟨hcl, ha | ⟨d, hd', hd⟩⟩ := resolves_clear hJ hc hn.2 hr
      · rw [ha.2.2.2.1] at hn; cases hn.1
      · have := hd.alt hn.1
        rw [hd'] at this
        exact OneOf.complete h' c' hc' (hc' ▸ hcl) this hv (hS.rule (.inr (.inr (.inr rfl))) hg hlook) hh
    · exact Res.fine_err he
theorem Item.complete {sc : Scope} {n : Node} {xs : List Value} (h : Item env sc n xs) (c : Ctx) (hsc : c.scope = sc)
    (hc : c.scope.Clear J) (hn : (n.entry J).ok = true) {i : Nat} (hg : S .entry n c i) (hh : ∀ x ∈ xs, x.height ≤ i) (w : WArr) (k : Nat) (ys : List Value) (hw : w.Inv k)
    (ha : w.array = xs ++ ys) (hy : ∀ y t, ys = y :: t → ¬ (n.entry J).clash.Has y) :
    ((lim env).arr n w c).Fine fun w' => w'.array = ys :=
  match h with
  | .value (n := n) (v := v) hi h' => by
    have hcl : n.clear J = true := by rw [item_entry hi] at hn; exact hn
    have := arrayValue_fine hl hJ (n := n) ha (Sat.complete h' c hsc hc hcl (hw.1 v (by rw [ha]; simp)) (hS.item hi hg) (hh v (by simp)))
    rw [arr_eq]
    cases n <;> first | exact this | cases hi
  | .keyValue (v := v) _ _ h' => by
    simp only [Node.entry] at hn
    rw [arr_eq]
    exact arrayValue_fine hl hJ ha (Sat.complete h' c hsc hc hn (hw.1 v (by rw [ha]; simp)) (hS.entryKey hg) (hh v (by simp)))
  | .rule hr h' => by
    simp only [Node.entry, Bool.and_eq_true] at hn hy
    rw [arr_eq]
    simp only [arrBody]
    rw [← hsc] at hr
    rcases look_complete hr with ⟨c', hlook, hc'⟩ | ⟨e, hlook, he⟩ <;> rw [hlook]
    · obtain ⟨hcl, har | ⟨d, hd', hd⟩⟩ := resolves_clear hJ hc hn.2 hr
      · exact Item.complete h' c' hc' (hc' ▸ hcl) har.1.2.1 (hS.rule (.inr (.inl rfl)) hg hlook) hh w k ys hw ha fun y t _ hh => by
          rw [har.1.2.2.2.1] at hh; exact Look.not_never hh
      · have hle := hd.entry hn.1
        rw [hd'] at hle
        simp only [ItemFacts.le, Bool.and_eq_true] at hle
        exact Item.complete h' c' hc' (hc' ▸ hcl) hle.1.1.1.1 (hS.rule (.inr (.inl rfl)) hg hlook) hh w k ys hw ha fun y t hyt hh => hy y t hyt (Look.within_has hle.1.2 hh)
    · exact he
  | .unwrap hr h' => by
    simp only [Node.entry, Bool.and_eq_true] at hn hy
    rw [arr_eq]
    simp only [arrBody]
    rw [← hsc] at hr
    rcases look_complete hr with ⟨c', hlook, hc'⟩ | ⟨e, hlook, he⟩ <;> rw [hlook]
    · obtain ⟨hcl, har | ⟨d, hd', hd⟩⟩ := resolves_clear hJ hc hn.2 hr
      · rw [har.2.2.2.2.1] at hn; cases hn.1
      · have hle := hd.unwrapEntry hn.1 _ hd'
        simp only [ItemFacts.le, Bool.and_eq_true] at hle
        exact Seq.complete h' c' hc' (hc' ▸ hcl) hle.1.1.1.1 (hS.entryUnwrap hg hlook) hh w k ys hw ha fun y t hyt hh => hy y t hyt (Look.within_has hle.1.2 hh)
    · exact he
  | .choice hm h' => by
    simp only [Node.entry] at hn hy
    rw [arr_eq]
    have hok := ItemFacts.choice_ok hn _ (entry_mem hm)
    exact arrChoice_fine hl hJ hw hc ha (Item.fits hJ h' (hsc ▸ hc) hok) (Item.single hJ h' (hsc ▸ hc) hok)
      (Item.complete h' c hsc hc hok (hS.entryChoice hg hm) hh w k ys hw ha fun y t hyt hh => hy y t hyt (ItemFacts.choice_clash (entry_mem hm) hh)) hm hn hy
  | .group h' => by
    simp only [Node.entry] at hn hy
    rw [arr_eq]
    exact arrayGroup_fine hl hJ (Seq.complete h' c hsc hc hn (fun m hm => hS.entryGroup hg hm) hh w.snapshot (k + 1) ys hw.snapshot ha hy)
  | .occur (k := m) hk h' => by
    simp only [Node.entry, ItemFacts.occur, Bool.and_eq_true, Bool.not_eq_true', Bool.or_eq_true, decide_eq_true_eq] at hn hy
    rw [arr_eq]
    obtain ⟨h1, h2⟩ := limits_of_count hk
    refine Rep.complete h' c hsc hc hn.1.1 hn.1.2 (hS.entryOccur hg) hh _ _ _ _ 0 w k ys hw ha (by omega) (by omega) (by omega) (hn.2.imp_left (by omega))
      (fun y t hyt hh => hy y t hyt (Look.has_or.mpr (.inl hh))) fun hne y t hyt hh => hy y t hyt (Look.has_or.mpr (.inr (Look.has_when.mpr ⟨?_, hh⟩)))
    simp only [Bool.not_eq_true', Bool.and_eq_false_iff, beq_eq_false_iff_ne, decide_eq_false_iff_not]
    omega
theorem Seq.complete {sc : Scope} {ns : List Node} {xs : List Value} (h : Seq env sc ns xs) (c : Ctx) (hsc : c.scope = sc)
    (hc : c.scope.Clear J) (hn : (ItemFacts.seq (Node.entries J ns)).ok = true) {i : Nat} (hg : ∀ n ∈ ns, S .entry n c i) (hh : ∀ x ∈ xs, x.height ≤ i) (w : WArr) (k : Nat) (ys : List Value) (hw : w.Inv k)
    (ha : w.array = xs ++ ys) (hy : ∀ y t, ys = y :: t → ¬ (ItemFacts.seq (Node.entries J ns)).clash.Has y) :
    (seqLoopS (fun m w => (lim env).arr m w c) ns w).Fine fun w' => w'.array = ys :=
  match h with
  | .nil _ => ha
  | .cons (n := n) (ns := ns) (xs := xs) (ys := zs) h1 h2 => by
    simp only [Node.entries] at hn hy
    obtain ⟨hn1, hn2, hap⟩ := ItemFacts.seq_ok hn
    have hfit := Seq.fits hJ h2 (hsc ▸ hc) hn2
    simp only [ItemFacts.seq, Look.has_or, Look.has_when] at hy
    have hitem := Item.complete h1 c hsc hc hn1 (hg _ List.mem_cons_self) (fun x hx => hh x (List.mem_append_left _ hx)) w k (zs ++ ys) hw (by rw [ha, List.append_assoc]) (by
      intro y t hyt hh
      have key : ∀ zs' : List Value, zs' ++ ys = y :: t → (ItemFacts.seq (Node.entries J ns)).Fits zs' → False := by
        intro zs' hzy hfit
        cases zs' with
        | nil => exact hy y t hzy (.inr ⟨hfit, hh⟩)
        | cons z zs'' => cases hzy; exact Look.apart_not hap hh hfit
      exact key zs hyt hfit)
    have hgood := (lim_good (plainErr_ok hl)).arr n w c k hw
    simp only [seqLoopS]
    cases hr : (lim env).arr n w c with
    | ok w' =>
      rw [hr] at hitem hgood
      exact Seq.complete h2 c hsc hc hn2 (fun n hn => hg n (List.mem_cons_of_mem _ hn)) (fun x hx => hh x (List.mem_append_right _ hx)) w' k ys hgood hitem fun y t hyt hh => hy y t hyt (.inl hh)
    | err e w' => rw [hr] at hitem; exact hitem
    | panic => trivial
    | fuel => trivial
theorem Rep.complete {sc : Scope} {n : Node} {m : Nat} {xs : List Value} (h : Rep env sc n m xs) (c : Ctx) (hsc : c.scope = sc)
    (hc : c.scope.Clear J) (hn : (n.entry J).ok = true) (he : (n.entry J).empty = false) {i : Nat} (hg : S .entry n c i) (hh : ∀ x ∈ xs, x.height ≤ i) (lo up : Nat) (msg : String) (j count : Nat)
    (w : WArr) (k : Nat) (ys : List Value) (hw : w.Inv k) (ha : w.array = xs ++ ys) (h1 : lo ≤ count + m) (h2 : count + m ≤ up)
    (h3 : count < up ∨ count = 0) (hap : up ≤ 1 ∨ (n.entry J).clash.apart (n.entry J).first = true)
    (hy : ∀ y t, ys = y :: t → ¬ (n.entry J).clash.Has y) (hz : (lo ≠ up ∨ up = 0) → ∀ y t, ys = y :: t → ¬ (n.entry J).first.Has y) :
    (occurLoopS (fun w => (lim env).arr n w c) lo up msg j count w).Fine fun w' => w'.array = ys :=
  match h, j with
  | _, 0 => trivial
  | .zero _ _, j + 1 => by
    have ha : w.array = ys := ha
    have hs := (lim_calm hl hJ).arr n w c k hw hc hn fun x t hxt => hz (by omega) x t (by rw [← ha]; exact hxt)
    simp only [occurLoopS]
    cases hr : (lim env).arr n w c with
    | ok w' => rw [hr, he] at hs; cases hs.2
    | err e w' =>
      rw [hr] at hs
      obtain ⟨hw', hpe⟩ := hs
      dsimp only
      split
      · rw [if_neg (by omega), hw']
        exact ha
      · cases hf : e.isFatal with
        | true => exact hf
        | false => exact absurd (hpe hf) ‹_›
    | panic => trivial
    | fuel => trivial
  | .succ (k := m) (xs := xs) (ys := zs) hi hrep, j + 1 => by
    have hfit := Rep.fits hJ hrep (hsc ▸ hc) hn he
    have hzero : m = 0 → zs = [] := fun hm => Rep.inv_zero (hm ▸ hrep)
    have hitem := Item.complete hi c hsc hc hn hg (fun x hx => hh x (List.mem_append_left _ hx)) w k (zs ++ ys) hw (by rw [ha, List.append_assoc]) (by
      intro y t hyt hh
      rcases hfit with ⟨hm, hzs⟩ | ⟨z, zs', hzs, hh'⟩
      · rw [hzs] at hyt; exact hy y t hyt hh
      · have hm : m ≠ 0 := fun hm => by rw [hzero hm] at hzs; cases hzs
        rw [hzs] at hyt
        cases hyt
        exact Look.apart_not (hap.resolve_left (by omega)) hh hh')
    have hgood := (lim_good (plainErr_ok hl)).arr n w c k hw
    simp only [occurLoopS]
    cases hr : (lim env).arr n w c with
    | ok w' =>
      rw [hr] at hitem hgood
      have hitem : w'.array = zs ++ ys := hitem
      dsimp only
      split
      · have hm : m = 0 := by omega
        rw [if_neg (by omega)]
        rw [hzero hm] at hitem
        exact hitem
      · exact Rep.complete hrep c hsc hc hn he hg (fun x hx => hh x (List.mem_append_right _ hx)) lo up msg j (count + 1) w' k ys hgood hitem (by omega) (by omega) (by omega) hap hy hz
    | err e w' =>
      rw [hr] at hitem
      have hitem : e.isFatal = true := hitem
      dsimp only
      rw [if_neg]
      · exact hitem
      · cases e <;> simp [Err.isFatal, Err.isMismatch] at hitem ⊢
    | panic => trivial
    | fuel => trivial
theorem MItem.complete {sc : Scope} {n : Node} {l : List Mark} (h : MItem env sc n l) (hk : CutsKept l) (c : Ctx) (hsc : c.scope = sc)
    (hc : c.scope.Clear J) (hn : (n.member J).ok = true) {i : Nat} (hg : S .member n c i)
    (hh : ∀ p ∈ taken l, p.1.height ≤ i ∧ p.2.height ≤ i) : MItemFine env J c n l ∧ OnePair env c n l :=
  match h with
  | .keyValue (k := key) (t := t) (x := x) (v := v) cut h1 h2 => by
    simp only [Node.member, Bool.and_eq_true] at hn
    have hp : ∀ p ∈ [(x, v)], PairFine env c key t p := by
      intro p hp
      have hp := List.mem_singleton.mp hp
      rw [hp]
      have hx := hh (x, v) List.mem_cons_self
      refine ⟨hsc ▸ h1, fun hv e he => ?_, fun hv => Sat.complete h2 c hsc hc hn.2 hv (hS.memberKey hg) hx.2⟩
      have h3 := Sat.complete h1 c hsc hc hn.1 hv (hS.key hg) hx.1 e he
      rw [hS.safe hg hx.1 he] at h3
      cases h3
    refine ⟨?_, rfl, hp⟩
    have hkey : (key.look J).Has x := MItem.keys hJ (.keyValue cut h1 h2) (hsc ▸ hc) (by simp only [Node.member, hn, Bool.and_self]) _ List.mem_cons_self
    intro w k g rest r hw ht hg' hm ho
    simp only [Node.member] at ho hg'
    have hgn : g = [] := none_given (l := [.pair x v]) (fun p hp => by
      rw [List.mem_singleton.mp hp]; exact hkey) ht hg'
    rw [hgn, List.nil_append] at ht
    have hm : ([(x, v)] ++ r).Perm w.map := (List.Perm.append_right r ht).trans hm
    have := keyvalue_fine hl hJ (cut := cut) hw hc hm hn.1 (by simp) hp (by
      rcases ho with ⟨ho, _⟩ | ho
      · intro p hp' hh
        exact keys_differ hw.1 hm (List.mem_singleton.mpr rfl) hp' (Look.single_eq ho hkey hh)
      · exact ho)
    dsimp only
    rw [map_eq]
    simp only [mapBody]
    refine this.imp ?_
    rintro w' ⟨p, l', hpl, hm'⟩
    have : l' = [] := List.length_eq_zero_iff.mp (by simpa using hpl.length_eq.symm)
    rw [this] at hm'
    exact ⟨[], hm', fun p hp => by cases hp⟩
  | .rule hr h' => by
    simp only [Node.member, Bool.and_eq_true] at hn
    refine ⟨?_, trivial⟩
    rw [← hsc] at hr
    rcases look_complete hr with ⟨c', hlook, hc'⟩ | ⟨e, hlook, he⟩
    · obtain ⟨hcl, har | ⟨d, hd', hd⟩⟩ := resolves_clear hJ hc hn.2 hr
      · rw [har.2.2.2.2.2.1] at hn; cases hn.1
      · have hle := hd.member hn.1
        rw [hd'] at hle
        have := ((MItem.complete h' hk c' hc' (hc' ▸ hcl) (MemberFacts.le_spec hle).1
          (hS.rule (.inr (.inr (.inl rfl))) hg hlook) hh).1).le hle
        intro w k g rest r hw ht hg' hm ho
        dsimp only
        rw [map_eq]
        simp only [mapBody, hlook]
        exact this w k g rest r hw ht hg' hm ho
    · intro w k g rest r hw ht hg' hm ho
      dsimp only
      rw [map_eq]
      simp only [mapBody, hlook]
      exact he
  | .unwrap hr h' => by
    simp only [Node.member, Bool.and_eq_true] at hn
    refine ⟨?_, trivial⟩
    rw [← hsc] at hr
    rcases look_complete hr with ⟨c', hlook, hc'⟩ | ⟨e, hlook, he⟩
    · obtain ⟨hcl, har | ⟨d, hd', hd⟩⟩ := resolves_clear hJ hc hn.2 hr
      · rw [har.2.2.2.2.2.2] at hn; cases hn.1
      · have hle := hd.unwrapMember hn.1 _ hd'
        have := (MSeq.complete h' hk c' hc' (hc' ▸ hcl) (MemberFacts.le_spec hle).1 (hS.memberUnwrap hg hlook) hh).le hle
        intro w k g rest r hw ht hg' hm ho
        dsimp only
        rw [map_eq]
        simp only [mapBody, hlook]
        exact this w k g rest r hw ht hg' hm ho
    · intro w k g rest r hw ht hg' hm ho
      dsimp only
      rw [map_eq]
      simp only [mapBody, hlook]
      exact he
  | .choice (os := os) (n := n) (l := l) hmem h' => by
    simp only [Node.member] at hn
    refine ⟨?_, trivial⟩
    have hok := MemberFacts.choice_ok hn _ (member_mem hmem)
    have hkeys := taken_keys hl hJ (MItem.keys hJ h' (hsc ▸ hc) hok)
    have hitem := (MItem.complete h' hk c hsc hc hok (hS.memberChoice hg hmem) hh).1
    intro w k g rest r hw ht hg' hm ho
    simp only [Node.member, MemberFacts.choice_held] at ho hg' ⊢
    have hgn : g = [] := none_given (fun p hp => MemberFacts.choice_keys (member_mem hmem) (hkeys p hp)) ht hg'
    rw [map_eq]
    rw [hgn, List.nil_append] at ht
    have hm : (taken l ++ r).Perm w.map := (List.Perm.append_right r ht).trans hm
    rcases ho with ho | ho
    · -- such a choice has a single alternative
      have hone : os = [n] := by
        cases os with
        | nil => cases hmem
        | cons a t =>
          cases t with
          | nil => rw [List.mem_singleton.mp hmem]
          | cons b t => simp [Node.members, MemberFacts.choice] at ho
      rw [hone] at ho ⊢
      have := hitem w k [] (taken l) r hw (.refl _) (fun p hp => by cases hp) hm (.inl ho)
      dsimp only at this
      simp only [mapBody, validateMapChoice]
      generalize "choice of " ++ toString [n].length = msg
      simp only [choiceLoopS]
      cases hr : (lim env).map n w c with
      | ok w' => rw [hr] at this; exact this
      | err e w' =>
        rw [hr] at this
        have this : e.isFatal = true := this
        dsimp only
        rw [if_pos]
        · exact this
        · cases e <;> simp [Err.isFatal, Err.isMismatch] at this ⊢
      | panic => trivial
      | fuel => trivial
    · refine (mapChoice_fine hl hJ hc hm hkeys
        (hitem.off hw hm fun p hp hh => ho p hp (MemberFacts.choice_keys (member_mem hmem) hh)) hmem hn ho).imp ?_
      exact fun w' h => ⟨[], h, fun p hp => by cases hp⟩
  | .group (ms := ms) h' => by
    simp only [Node.member] at hn
    refine ⟨?_, trivial⟩
    have := MSeq.complete h' hk c hsc hc hn (fun m hm => hS.memberGroup hg hm) hh
    intro w k g rest r hw ht hg' hm ho
    simp only [Node.member] at ho hg' ⊢
    rw [map_eq]
    exact mapGroup_fine hl hJ (Q := fun m => ∃ g', r.Perm (g' ++ m) ∧ ∀ p ∈ g', (MemberFacts.seq (Node.members J ms)).grab.Has p.1 ∧
      (MemberFacts.seq (Node.members J ms)).keys.Has p.1) (this w.snapshot (k + 1) g rest r hw.snapshot ht hg' hm ho)
  | .occur (n := n) (l := l) hcount h' => by
    have hok : (n.member J).ok = true := by simp only [Node.member, MemberFacts.occur, Bool.and_eq_true] at hn; exact hn.1
    have := MRep.complete h' (cutsKept_append.mp hk).1 c hsc hc hok (hS.memberOccur hg)
      fun p hp => hh p (by rw [taken_append]; exact List.mem_append_left _ hp)
    exact ⟨mapOccur_fine hl hJ hc hn hcount (taken_keys hl hJ (MRep.keys hJ h' (hsc ▸ hc) hok)) this.1 this.2.1 this.2.2, trivial⟩
theorem MSeq.complete {sc : Scope} {ns : List Node} {l : List Mark} (h : MSeq env sc ns l) (hk : CutsKept l) (c : Ctx) (hsc : c.scope = sc)
    (hc : c.scope.Clear J) (hn : (MemberFacts.seq (Node.members J ns)).ok = true) {i : Nat} (hg : ∀ n ∈ ns, S .member n c i)
    (hh : ∀ p ∈ taken l, p.1.height ≤ i ∧ p.2.height ≤ i) :
    MatchFine (.seq (Node.members J ns)) l (seqLoopS (fun m w => (lim env).map m w c) ns) :=
  match h with
  | .nil _ => by
    intro w k g rest r hw ht hg' hm ho
    have hgr : g ++ rest = [] := List.nil_perm.mp ht
    have : rest = [] := (List.append_eq_nil_iff.mp hgr).2
    rw [this] at hm
    exact ⟨[], hm, fun p hp => by cases hp⟩
  | .cons (n := n) (ns := ns) (l := l) (l' := l') h1 h2 => by
    simp only [Node.members] at hn ⊢
    simp only [MemberFacts.seq, Bool.and_eq_true, Bool.or_eq_true] at hn
    obtain ⟨hk1, hk2, hk3⟩ := cutsKept_append.mp hk
    have hkeys1 := MItem.keys hJ h1 (hsc ▸ hc) hn.1.1
    have hkeys := taken_keys hl hJ (MSeq.keys hJ h2 (hsc ▸ hc) hn.1.2)
    rw [taken_append] at hh
    have i1 := (MItem.complete h1 hk1 c hsc hc hn.1.1 (hg _ List.mem_cons_self) fun p hp => hh p (List.mem_append_left _ hp)).1
    have i2 := MSeq.complete h2 hk2 c hsc hc hn.1.2 (fun n hn => hg n (List.mem_cons_of_mem _ hn))
      fun p hp => hh p (List.mem_append_right _ hp)
    intro w k g rest r hw ht hg' hm ho
    simp only [MemberFacts.seq, Bool.and_eq_true, Look.has_or] at ho hg' ⊢
    rw [taken_append] at ht
    obtain ⟨g1, g2, rest1, rest2, hgs, hrs, ht1, ht2⟩ := perm_split ht
    have hrest2 : ∀ p ∈ rest2, p ∈ taken l' := fun p hp => ht2.symm.subset (List.mem_append_right _ hp)
    have hm1 : (rest1 ++ (rest2 ++ r)).Perm w.map := by
      rw [← List.append_assoc]
      exact (List.Perm.append_right r hrs.symm).trans hm
    have hitem := i1 w k g1 rest1 (rest2 ++ r) hw ht1 (fun p hp hh => hg' p (hgs.symm.subset (List.mem_append_left _ hp)) (.inl hh)) hm1 (by
      by_cases hs : (n.member J).copes = true
      · refine .inl ⟨hs, fun k' hk' p hp => ?_⟩
        rcases List.mem_append.mp hp with hp | hp
        · exact hk3 k' hk' p (hrest2 p hp)
        · rcases ho with ho | ho
          · exact ho.2 k' (List.mem_append_left _ hk') p hp
          · intro he
            have := hkeys1 _ hk'
            simp only [Mark.key, ← he] at this
            exact ho p hp (.inl this)
      · have ho := ho.resolve_left fun h => hs h.1.1
        refine .inr fun p hp hh => ?_
        rcases List.mem_append.mp hp with hp | hp
        · exact Look.apart_not (hn.2.resolve_left fun h => hs h.1) hh (hkeys p (hrest2 p hp))
        · exact ho p hp (.inl hh))
    have hgood := (lim_good (plainErr_ok hl)).map n w c k hw
    simp only [seqLoopS]
    cases hr : (lim env).map n w c with
    | ok w' =>
      dsimp only at hitem
      rw [hr] at hitem hgood
      obtain ⟨g', hp, hgk⟩ := hitem
      obtain ⟨ga, gb, ra, rb, hgp, hwp, hra, hrb⟩ := perm_split hp
      have hga : ∀ p ∈ ga, p ∈ g' := fun p hp => hgp.symm.subset (List.mem_append_left _ hp)
      refine (i2 w' k (g2 ++ ga) ra rb hgood (ht2.trans ?_) (fun p hp hh => ?_) hwp.symm ?_).imp ?_
      · rw [List.append_assoc]
        exact List.Perm.append_left g2 hra
      · rcases List.mem_append.mp hp with hp | hp
        · exact hg' p (hgs.symm.subset (List.mem_append_right _ hp)) (.inr hh)
        · rcases hn.2 with hap | hap
          · exact Look.apart_not hap.2 (hgk p (hga p hp)).1 hh
          · exact Look.apart_not hap (hgk p (hga p hp)).2 (hkeys p (hrest2 p (hra.symm.subset (List.mem_append_left _ hp))))
      · have hsub : ∀ p ∈ rb, p ∈ r := fun p hp => hrb.symm.subset (List.mem_append_right _ hp)
        exact ho.imp (fun ho => ⟨ho.1.2, fun k' hk' p hp => ho.2 k' (List.mem_append_right _ hk') p (hsub p hp)⟩)
          fun ho p hp hh => ho p (hsub p hp) (.inr hh)
      · rintro w'' ⟨g'', h3, h4⟩
        refine ⟨gb ++ g'', ?_, fun p hp => ?_⟩
        · rw [List.append_assoc]
          exact hrb.trans (List.Perm.append_left gb h3)
        · rcases List.mem_append.mp hp with hp | hp
          · have := hgk p (hgp.symm.subset (List.mem_append_right _ hp))
            exact ⟨.inl this.1, .inl this.2⟩
          · exact ⟨.inr (h4 p hp).1, .inr (h4 p hp).2⟩
    | err e w' => dsimp only at hitem; rw [hr] at hitem; exact hitem
    | panic => trivial
    | fuel => trivial
theorem MRep.complete {sc : Scope} {n : Node} {m : Nat} {l : List Mark} (h : MRep env sc n m l) (hk : CutsKept l) (c : Ctx) (hsc : c.scope = sc)
    (hc : c.scope.Clear J) (hn : (n.member J).ok = true) {i : Nat} (hg : S .member n c i)
    (hh : ∀ p ∈ taken l, p.1.height ≤ i ∧ p.2.height ≤ i) :
    (m = 0 → taken l = []) ∧ (m = 1 → MItemFine env J c n l) ∧ Pairs env c n m l :=
  match h with
  | .zero _ n => by
    refine ⟨fun _ => rfl, fun h => absurd h (by omega), ?_⟩
    cases n <;> first | trivial | exact ⟨rfl, fun p hp => by cases hp⟩
  | .succ (k := k) (l := l) (l' := l') h1 h2 => by
    obtain ⟨hk1, hk2, _⟩ := cutsKept_append.mp hk
    rw [taken_append] at hh
    have i1 := MItem.complete h1 hk1 c hsc hc hn hg fun p hp => hh p (List.mem_append_left _ hp)
    have i2 := MRep.complete h2 hk2 c hsc hc hn hg fun p hp => hh p (List.mem_append_right _ hp)
    refine ⟨fun h => absurd h (by omega), fun hk => ?_, pairs_cons hl hJ i1.2 i2.2.2⟩
    have hz : k = 0 := by omega
    have hnil : l' = [] := MRep.inv_zero (hz ▸ h2)
    rw [hnil, List.append_nil]
    exact i1.1
end

end Main

end Cddl
