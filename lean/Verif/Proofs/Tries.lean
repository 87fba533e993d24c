import Verif.Spec.Tries
import Verif.Proofs.Reads

/-! # The validator tries entries on data that is used up -/

namespace Cddl

/-- Something more is noted by the innermost group, if there is one. -/
def noteIn {τ : Type} (l : List τ) : List (List τ) → List (List τ)
  | [] => []
  | s :: ss => (s ++ l) :: ss

@[simp] theorem noteIn_nil {τ : Type} (ss : List (List τ)) : noteIn [] ss = ss := by cases ss <;> simp [noteIn]
@[simp] theorem noteIn_noteIn {τ : Type} (l l' : List τ) (ss : List (List τ)) : noteIn l' (noteIn l ss) = noteIn (l ++ l') ss := by
  cases ss <;> simp [noteIn]

/-- The working copy, as data and notes. -/
structure Copy (W σ τ : Type) where
  data : W → σ
  notes : W → List (List τ)
  /-- all that is left or noted comes from the data before -/
  part : σ → σ → List τ → Prop
  refl : ∀ x, part x x []
  trans : ∀ {x y z l l'}, part x y l → part y z l' → part x z (l ++ l')

/-- The result is as `P` says, and what is noted is added to the notes of `w`. -/
def SRes.Leaves {W σ τ : Type} (V : Copy W σ τ) (w : W) (P : Out Unit → σ → List τ → Prop) : SRes W → Prop
  | .ok w' => ∃ l, V.notes w' = noteIn l (V.notes w) ∧ V.part (V.data w) (V.data w') l ∧ P (.took ()) (V.data w') l
  | .err e w' => ∃ l, V.notes w' = noteIn l (V.notes w) ∧ V.part (V.data w) (V.data w') l ∧ P (.ofErr e) (V.data w') l
  | _ => True

theorem SRes.Leaves.imp {W σ τ : Type} {V : Copy W σ τ} {w : W} {P Q : Out Unit → σ → List τ → Prop} {r : SRes W}
    (h : r.Leaves V w P) (hPQ : ∀ o y l, P o y l → Q o y l) : r.Leaves V w Q := by
  cases r with
  | ok w' => obtain ⟨l, h1, h2, h3⟩ := h; exact ⟨l, h1, h2, hPQ _ _ _ h3⟩
  | err e w' => obtain ⟨l, h1, h2, h3⟩ := h; exact ⟨l, h1, h2, hPQ _ _ _ h3⟩
  | _ => trivial

section Loops
variable {W σ τ : Type} {V : Copy W σ τ} {I : W → Prop} {E : Err → Prop} {env : Env} {simple : Node → Bool}
  {single : Ctx → Node → σ → Out Unit → σ → List τ → Prop} {body : Node → Option (List Node)} {back : List τ → σ → σ → Prop}
  {c : Ctx}

theorem Leaves.here {w : W} {P : Out Unit → σ → List τ → Prop} {e : Err} (h : P (.ofErr e) (V.data w) []) :
    (SRes.err e w).Leaves V w P := ⟨[], by simp, V.refl _, h⟩

theorem Leaves.after {w w1 : W} {l : List τ} {r : SRes W} {P : Out Unit → σ → List τ → Prop}
    (hn : V.notes w1 = noteIn l (V.notes w)) (hp : V.part (V.data w) (V.data w1) l)
    (h : r.Leaves V w1 fun o y l' => P o y (l ++ l')) : r.Leaves V w P := by
  cases r with
  | ok w' => obtain ⟨l', h1, h2, h3⟩ := h; exact ⟨l ++ l', by rw [h1, hn, noteIn_noteIn], V.trans hp h2, h3⟩
  | err e w' => obtain ⟨l', h1, h2, h3⟩ := h; exact ⟨l ++ l', by rw [h1, hn, noteIn_noteIn], V.trans hp h2, h3⟩
  | _ => trivial

theorem seqLoopS_tries {f : Node → W → SRes W} : ∀ {l : List Node}, (∀ n ∈ l, ∀ w, I w → (f n w).Safe E I) →
    (∀ n ∈ l, ∀ w, I w → (f n w).Leaves V w (TriesOne env simple single body back c n (V.data w))) → ∀ w, I w →
    (seqLoopS f l w).Leaves V w (TriesAll env simple single body back c l (V.data w))
  | [], _, _, w, _ => ⟨[], by simp, V.refl _, .nil _ _⟩
  | n :: ns, hs, hg, w, hw => by
    have h1 := hs n (by simp) w hw
    have h2 := hg n (by simp) w hw
    simp only [seqLoopS]
    cases hf : f n w with
    | ok w1 =>
      rw [hf] at h1 h2
      obtain ⟨l, hn, hp, h2⟩ := h2
      have ih := seqLoopS_tries (l := ns) (fun m hm => hs m (List.mem_cons_of_mem _ hm))
        (fun m hm => hg m (List.mem_cons_of_mem _ hm)) w1 h1
      exact Leaves.after hn hp (ih.imp fun o y l' h => .cons h2 h)
    | err e w1 =>
      rw [hf] at h2
      obtain ⟨l, hn, hp, h2⟩ := h2
      exact ⟨l, hn, hp, .fails _ h2 (Out.ofErr_failed e)⟩
    | _ => trivial

theorem choiceLoopS_tries {f : Node → W → SRes W} {g : Node → Node} {stop : Err → Bool} {msg : String}
    (hst : ∀ e, E e → stop e = !e.isMismatch) :
    ∀ {l : List Node}, (∀ n ∈ l, ∀ w, I w → (f n w).Safe E I) →
      (∀ n ∈ l, ∀ w, I w → (f n w).Leaves V w (TriesOne env simple single body back c (g n) (V.data w))) → ∀ w, I w →
      (choiceLoopS f stop msg l w).Leaves V w (TriesFirst env simple single body back c (l.map g) (V.data w))
  | [], _, _, w, _ => Leaves.here (.nil _ _)
  | n :: ns, hs, hg, w, hw => by
    have h1 := hs n (by simp) w hw
    have h2 := hg n (by simp) w hw
    simp only [choiceLoopS, List.map_cons]
    cases hf : f n w with
    | ok w1 =>
      rw [hf] at h2
      obtain ⟨l, hn, hp, h2⟩ := h2
      exact ⟨l, hn, hp, .first _ h2⟩
    | err e w1 =>
      rw [hf] at h1 h2
      obtain ⟨l, hn, hp, h2⟩ := h2
      dsimp only
      rw [hst e h1.1]
      cases hm : e.isMismatch with
      | false => exact ⟨l, hn, hp, .ends _ h2 (Out.ofErr_ends hm)⟩
      | true =>
        rw [Out.ofErr_no hm] at h2
        simp only [Bool.not_true, Bool.false_eq_true, if_false]
        have ih := choiceLoopS_tries hst (l := ns) (fun m hm => hs m (List.mem_cons_of_mem _ hm))
          (fun m hm => hg m (List.mem_cons_of_mem _ hm)) w1 h1.2 (msg := msg)
        exact Leaves.after hn hp (ih.imp fun o y l' h => .next h2 h)
    | _ => trivial

theorem occurLoopS_tries {f : W → SRes W} {n : Node} {lo up : Nat} {msg : String} (hs : ∀ w, I w → (f w).Safe E I)
    (hg : ∀ w, I w → (f w).Leaves V w (TriesOne env simple single body back c n (V.data w))) :
    ∀ (k cnt : Nat) (w : W), I w → (occurLoopS f lo up msg k cnt w).Leaves V w
      (TriesMany env simple single body back c n (lo - cnt) (up - cnt) (V.data w))
  | 0, _, _, _ => trivial
  | k + 1, cnt, w, hw => by
    have h1 := hs w hw
    have h2 := hg w hw
    simp only [occurLoopS]
    cases hf : f w with
    | ok w1 =>
      rw [hf] at h1 h2
      obtain ⟨l, hn, hp, h2⟩ := h2
      dsimp only
      split
      · split
        · exact ⟨l, hn, hp, .lastShort h2 (by omega) (by omega)⟩
        · exact ⟨l, hn, hp, .last h2 (by omega) (by omega)⟩
      · have ih := occurLoopS_tries hs hg (lo := lo) (up := up) (msg := msg) k (cnt + 1) w1 h1
        rw [Nat.sub_add_eq, Nat.sub_add_eq] at ih
        exact Leaves.after hn hp (ih.imp fun o y l' h => .more h2 (by omega) h)
    | err e w1 =>
      rw [hf] at h2
      obtain ⟨l, hn, hp, h2⟩ := h2
      dsimp only
      cases hm : e.isMismatch with
      | false => exact ⟨l, hn, hp, .ends _ _ h2 (Out.ofErr_ends hm)⟩
      | true =>
        rw [Out.ofErr_no hm] at h2
        simp only [if_true]
        split
        · exact ⟨l, hn, hp, .few h2 (by omega)⟩
        · refine ⟨l, hn, hp, ?_⟩
          rw [show lo - cnt = 0 by omega]; exact .enough h2
    | _ => trivial

end Loops

/-- The working copy of an array. -/
def arrCopy : Copy WArr (List Value) Value := ⟨WArr.array, WArr.snaps, fun _ _ _ => True, fun _ => trivial, fun _ _ => trivial⟩

/-- The working copy of a map. -/
def mapCopy : Copy WMap (List (Value × Value)) (Value × Value) where
  data := WMap.map
  notes := WMap.snaps
  part x y l := (∀ p ∈ y, p ∈ x) ∧ ∀ p ∈ l, p ∈ x
  refl x := ⟨fun _ h => h, nofun⟩
  trans {x y z l l'} h h' := ⟨fun p hp => h.1 p (h'.1 p hp), fun p hp => by
    rcases List.mem_append.mp hp with hp | hp
    · exact h.2 p hp
    · exact h.1 p (h'.2 p hp)⟩

/-- Pairs that were in a map are given back. -/
theorem extend_back {M : VMap} (hM : VMap.PW M) : ∀ {l : List (Value × Value)} {m : VMap}, VMap.PW m → (∀ p ∈ m, p ∈ M) →
    (∀ p ∈ l, p ∈ M) → PairsBack l m (VMap.extend m l)
  | [], m, hm, _, _ => ⟨(VMap.sorted_iff _).mpr hm, fun p => by simp [VMap.extend]⟩
  | q :: l, m, hm, h1, h2 => by
    have h3 := extend_back hM (l := l) (m := VMap.insert m q.1 q.2) (hm.insert _ _)
      (fun p hp => by
        rcases (VMap.mem_insert hm).mp hp with rfl | hp
        · exact h2 _ (by simp)
        · exact h1 p hp.1)
      (fun p hp => h2 p (List.mem_cons_of_mem _ hp))
    refine ⟨h3.1, fun p => (h3.2 p).trans ?_⟩
    rw [VMap.mem_insert hm]
    constructor
    · rintro ((rfl | h) | h)
      · exact .inr (by simp)
      · exact .inl h.1
      · exact .inr (List.mem_cons_of_mem _ h)
    · rintro (h | h)
      · by_cases hk : p.1 = q.1
        · refine .inl (.inl ?_)
          have ha := (VMap.get_some hM (k := p.1) (v := p.2)).mpr (h1 p h)
          have hb := (VMap.get_some hM (k := q.1) (v := q.2)).mpr (h2 q (by simp))
          rw [hk, hb] at ha
          cases p; cases q; cases hk; cases ha; rfl
        · exact .inl (.inr ⟨h, hk⟩)
      · rcases List.mem_cons.mp h with rfl | h
        · exact .inl (.inl rfl)
        · exact .inr h

/-- A single entry of an array. -/
theorem simple_element (env : Env) {n : Node} (hn : n.isElement = true) (w : WArr) (c : Ctx) :
    ((lim env).arr n w c).Leaves arrCopy w (TriesElement env c n w.array) := by
  have h : (lim env).arr n w c = validateArrayValue env (lim env) n.entryOf w c := by
    rw [arr_eq]
    cases n <;> first | rfl | cases hn
  rw [h]
  unfold validateArrayValue
  split
  · rename_i v xs hw
    rw [hw]
    cases hv : (lim env).val v n.entryOf c with
    | ok =>
      dsimp only
      unfold WArr.popFront
      rw [hw]
      dsimp only
      split <;> rename_i hs
      · exact ⟨[v], by simp [arrCopy, hs, noteIn], trivial, .take _ hv⟩
      · exact ⟨[v], by simp [arrCopy, hs, noteIn], trivial, .take _ hv⟩
    | err e => exact Leaves.here (by simp only [arrCopy, hw]; exact .refuse _ hv)
    | _ => trivial
  · rename_i hw
    rw [hw]
    exact Leaves.here (by simp only [arrCopy, hw]; exact .none _ _)

/-- A single entry of a map. -/
theorem simple_pair (env : Env) {n : Node} (hn : n.isPair = true) {w : WMap} (hw : VMap.PW w.map) (c : Ctx) :
    ((lim env).map n w c).Leaves mapCopy w (TriesPair env c n w.map) := by
  rw [map_eq]
  cases n with
  | keyValue k t cut =>
    simp only [mapBody, validateMapKeyvalue]
    cases hk : validateMapKey env (lim env) k w c with
    | ok p =>
      obtain ⟨x, v⟩ := p
      obtain ⟨pre, post, hm, h1, h2⟩ := mapKey_split hw hk
      dsimp only
      cases hv : (lim env).val v t c with
      | ok =>
        dsimp only
        unfold WMap.remove
        rw [hm] at hw ⊢
        rw [VMap.remove_some hw (v := v) (by simp), without_split hw]
        have hpart : mapCopy.part (mapCopy.data w) (pre ++ post) [(x, v)] := by
          refine ⟨fun p hp => ?_, fun p hp => ?_⟩
          · show p ∈ w.map
            rw [hm]
            rcases List.mem_append.mp hp with hp | hp <;> simp [hp]
          · show p ∈ w.map
            rw [hm, List.mem_singleton.mp hp]; simp
        dsimp only
        split <;> rename_i hs
        · exact ⟨[(x, v)], by simp [mapCopy, hs, noteIn], hpart, .take _ _ h1 h2 hv⟩
        · exact ⟨[(x, v)], by simp [mapCopy, hs, noteIn], hpart, .take _ _ h1 h2 hv⟩
      | err e =>
        have h3 := TriesPair.refuse cut post h1 h2 hv
        rw [← hm] at h3
        cases cut <;> cases e <;> exact Leaves.here (V := mapCopy) h3
      | _ => trivial
    | err e =>
      obtain ⟨⟨m, rfl⟩, h1⟩ := mapKey_no hw hk
      exact Leaves.here (V := mapCopy) (.none _ _ h1)
    | _ => trivial
  | occur | rule | unwrap | choice | group | choiceify | choiceifyInline => cases hn
  | literal l => exact Leaves.here (V := mapCopy) (.misplaced _ rfl (.literal l))
  | «prelude» l => exact Leaves.here (V := mapCopy) (.misplaced _ rfl (.prelude l))
  | map l => exact Leaves.here (V := mapCopy) (.misplaced _ rfl (.map l))
  | array l => exact Leaves.here (V := mapCopy) (.misplaced _ rfl (.array l))
  | range a b i => exact Leaves.here (V := mapCopy) (.misplaced _ rfl (.range a b i))
  | ctl a b i => exact Leaves.here (V := mapCopy) (.misplaced _ rfl (.control a b i))
  | ctlRegexp l => exact Leaves.here (V := mapCopy) (.misplaced _ rfl (.regexp l))
  | ctlCbor l => exact Leaves.here (V := mapCopy) (.misplaced _ rfl (.cbor l))

/-- One entry of an array or a map tried. -/
abbrev TriesArrayEntry (env : Env) : Ctx → Node → List Value → Out Unit → List Value → List Value → Prop :=
  TriesOne env Node.isElement (TriesElement env) Node.arrayEntries fun l y z => z = l ++ y

abbrev TriesMapEntry (env : Env) :
    Ctx → Node → List (Value × Value) → Out Unit → List (Value × Value) → List (Value × Value) → Prop :=
  TriesOne env Node.isPair (TriesPair env) Node.mapEntries PairsBack

section Main
variable {env : Env} (hl : ∀ s e, env.lookup s = .error e → e.isFatal = true)
include hl

theorem fns_tries_arr : ∀ (k : Nat) (n : Node) (w : WArr) (c : Ctx) (j : Nat), w.Inv j →
    ((fns env k).arr n w c).Leaves arrCopy w (TriesArrayEntry env c n w.array)
  | 0, _, _, _, _, _ => trivial
  | k + 1, n, w, c, j, hw => by
    have G := fns_good (plainErr_ok hl) k
    have ih := fns_tries_arr k
    have stop : ∀ e : Err, PlainErr e → e.isFatal = !e.isMismatch := by
      intro e he
      cases hf : e.isFatal with
      | false => rw [he hf]; rfl
      | true => cases e <;> first | rfl | cases hf
    by_cases he : n.isElement = true
    · have h1 := simple_element env he w c
      rcases fns_arr_lim env (k + 1) n w c with h | h
      · rw [h]; trivial
      · rw [h]
        exact h1.imp fun o y l h => .single he h
    show (arrBody env (fns env k) n w c).Leaves _ _ _
    cases n <;> first | exact absurd rfl he | skip
    case rule s as =>
      simp only [arrBody]
      cases hk : c.lookupRule env s as with
      | error e => exact Leaves.here (V := arrCopy) (.noRule _ hk)
      | ok a => exact (ih a.1 w a.2 j hw).imp fun o y l h => .rule hk h
    case unwrap s as =>
      simp only [arrBody]
      cases hk : c.lookupRule env s as with
      | error e => exact Leaves.here (V := arrCopy) (.noUnwrap _ hk)
      | ok a =>
        obtain ⟨n, c'⟩ := a
        unfold validateArrayUnwrap
        dsimp only
        split
        · rename_i l
          exact (seqLoopS_tries (V := arrCopy) (I := WArr.Inv j) (E := PlainErr) (c := c') (l := l)
            (f := fun m w => (fns env k).arr m w c') (fun n _ w hw => G.arr n w c' _ hw)
            (fun n _ w hw => ih n w c' j hw) w hw).imp fun o y l h => .unwrap hk rfl h
        · rename_i h5
          refine Leaves.here (V := arrCopy) (.unwrapOther _ hk ?_)
          cases n <;> first | rfl | exact absurd rfl (h5 _)
    case choice l =>
      simp only [arrBody]
      have h5 := choiceLoopS_tries (V := arrCopy) (I := WArr.Inv j) (E := PlainErr) (c := c) (l := l) (g := id)
        (f := fun m w => (fns env k).arr m w c) (msg := "choice of " ++ toString l.length) stop
        (fun n _ w hw => G.arr n w c _ hw) (fun n _ w hw => ih n w c j hw) w hw
      rw [List.map_id] at h5
      exact h5.imp fun o y l h => .choice h
    case group l =>
      simp only [arrBody, validateArrayGroup]
      have h5 := seqLoopS_tries (V := arrCopy) (I := WArr.Inv (j + 1)) (E := PlainErr) (c := c) (l := l)
        (f := fun m w => (fns env k).arr m w c) (fun n _ w hw => G.arr n w c _ hw)
        (fun n _ w hw => ih n w c (j + 1) hw) w.snapshot hw.snapshot
      have h6 := seqLoopS_safe (E := PlainErr) (I := WArr.Inv (j + 1)) (f := fun m w => (fns env k).arr m w c) l w.snapshot
        hw.snapshot (fun n _ w hw => G.arr n w c _ hw)
      revert h5 h6
      cases seqLoopS (fun m w => (fns env k).arr m w c) l w.snapshot with
      | ok w' =>
        rintro ⟨l', h1, -, h3⟩ h6
        have h1 : w'.snaps = l' :: w.snaps := by simpa [arrCopy, WArr.snapshot, noteIn] using h1
        dsimp only
        unfold WArr.commit
        rw [h1]
        exact ⟨[], by simp [arrCopy], trivial, .group h3⟩
      | err e w' =>
        rintro ⟨l', h1, -, h3⟩ h6
        have h1 : w'.snaps = l' :: w.snaps := by simpa [arrCopy, WArr.snapshot, noteIn] using h1
        dsimp only
        unfold WArr.rewind
        rw [h1]
        refine ⟨[], by simp [arrCopy], trivial, ?_⟩
        have h7 := TriesOne.groupFails h3 (Out.ofErr_failed e) rfl
        rw [← Out.ofErr_erase] at h7
        have h8 := stop e h6.1
        cases e <;> first | exact h7 | cases h8
      | _ => exact fun _ _ => trivial
    case occur o n =>
      simp only [arrBody, validateArrayOccur]
      exact (occurLoopS_tries (V := arrCopy) (I := WArr.Inv j) (E := PlainErr) (c := c) (n := n)
        (f := fun w => (fns env k).arr n w c) (lo := o.limits.1) (up := o.limits.2)
        (msg := "more array element [" ++ occurDisplay env.fmtF64 o n ++ "]") (fun w hw => G.arr n w c _ hw)
        (fun w hw => ih n w c j hw) (o.limits.2 + 1) 0 w hw).imp fun o y l h => .occur h

theorem fns_tries_map : ∀ (k : Nat),
    (∀ (n : Node) (w : WMap) (c : Ctx) (j : Nat), w.Inv j →
      ((fns env k).map n w c).Leaves mapCopy w (TriesMapEntry env c n w.map)) ∧
    (∀ (s : String) (as : List Node) (w : WMap) (c : Ctx) (j : Nat), w.Inv j →
      ((fns env k).mchf s as w c).Leaves mapCopy w (TriesMapEntry env c (.choiceify s as) w.map))
  | 0 => ⟨fun _ _ _ _ _ => trivial, fun _ _ _ _ _ _ => trivial⟩
  | k + 1 => by
    have G := fns_good (plainErr_ok hl) k
    obtain ⟨ih, ihc⟩ := fns_tries_map k
    refine ⟨fun n w c j hw => ?_, fun s as w c j hw => ?_⟩
    · by_cases he : n.isPair = true
      · have h1 := simple_pair env he hw.1 c
        rcases fns_map_lim env (k + 1) n w c with h | h
        · rw [h]; trivial
        · rw [h]
          exact h1.imp fun o y l h => .single he h
      show (mapBody env (fns env k) n w c).Leaves _ _ _
      have choice : ∀ l : List Node, (validateMapChoice (fns env k) l w c).Leaves mapCopy w
          (TriesFirst env Node.isPair (TriesPair env) Node.mapEntries PairsBack c l w.map) := by
        intro l
        have h5 := choiceLoopS_tries (V := mapCopy) (I := WMap.Inv j) (E := fun _ => True) (c := c) (l := l) (g := id)
          (f := fun m w => (fns env k).map m w c) (msg := "choice of " ++ toString l.length)
          (stop := fun e => !e.isMismatch) (fun _ _ => rfl)
          (fun n _ w hw => G.map n w c _ hw) (fun n _ w hw => ih n w c j hw) w hw
        rw [List.map_id] at h5
        exact h5
      cases n <;> first | exact absurd rfl he | skip
      case rule s as =>
        simp only [mapBody]
        cases hk : c.lookupRule env s as with
        | error e => exact Leaves.here (V := mapCopy) (.noRule _ hk)
        | ok a => exact (ih a.1 w a.2 j hw).imp fun o y l h => .rule hk h
      case unwrap s as =>
        simp only [mapBody]
        cases hk : c.lookupRule env s as with
        | error e => exact Leaves.here (V := mapCopy) (.noUnwrap _ hk)
        | ok a =>
          obtain ⟨n, c'⟩ := a
          unfold validateMapUnwrap
          dsimp only
          split
          · rename_i l
            exact (seqLoopS_tries (V := mapCopy) (I := WMap.Inv j) (E := fun _ => True) (c := c') (l := l)
              (f := fun m w => (fns env k).map m w c') (fun n _ w hw => G.map n w c' _ hw)
              (fun n _ w hw => ih n w c' j hw) w hw).imp fun o y l h => .unwrap hk rfl h
          · rename_i h5
            refine Leaves.here (V := mapCopy) (.unwrapOther _ hk ?_)
            cases n <;> first | rfl | exact absurd rfl (h5 _)
      case choice l => exact (choice l).imp fun o y l h => .choice h
      case choiceifyInline l => exact (choice l).imp fun o y l h => .inline rfl h
      case choiceify s as => exact ihc s as w c j hw
      case group l =>
        simp only [mapBody, validateMapGroup]
        have h5 := seqLoopS_tries (V := mapCopy) (I := WMap.Inv (j + 1)) (E := fun _ => True) (c := c) (l := l)
          (f := fun m w => (fns env k).map m w c) (fun n _ w hw => G.map n w c _ hw)
          (fun n _ w hw => ih n w c (j + 1) hw) w.snapshot hw.snapshot
        have h6 := seqLoopS_safe (E := fun _ => True) (I := WMap.Inv (j + 1)) (f := fun m w => (fns env k).map m w c) l
          w.snapshot hw.snapshot (fun n _ w hw => G.map n w c _ hw)
        revert h5 h6
        cases seqLoopS (fun m w => (fns env k).map m w c) l w.snapshot with
        | ok w' =>
          rintro ⟨l', h1, h2, h3⟩ h6
          have h1 : w'.snaps = l' :: w.snaps := by simpa [mapCopy, WMap.snapshot, noteIn] using h1
          dsimp only
          unfold WMap.commit
          rw [h1]
          exact ⟨[], by simp [mapCopy], ⟨h2.1, nofun⟩, .group h3⟩
        | err e w' =>
          rintro ⟨l', h1, h2, h3⟩ h6
          have h1 : w'.snaps = l' :: w.snaps := by simpa [mapCopy, WMap.snapshot, noteIn] using h1
          have h8 := extend_back hw.1 h6.2.1 h2.1 h2.2
          dsimp only
          unfold WMap.rewind
          rw [h1]
          refine ⟨[], by simp [mapCopy], ⟨fun p hp => ?_, nofun⟩, ?_⟩
          · rcases (h8.2 p).mp hp with hp | hp
            · exact h2.1 p hp
            · exact h2.2 p hp
          · have h7 := TriesOne.groupFails h3 (Out.ofErr_failed e) h8
            rw [← Out.ofErr_erase] at h7
            exact h7
        | _ => exact fun _ _ => trivial
      case occur o n =>
        simp only [mapBody, validateMapOccur]
        exact (occurLoopS_tries (V := mapCopy) (I := WMap.Inv j) (E := fun _ => True) (c := c) (n := n)
          (f := fun w => (fns env k).map n w c) (lo := o.limits.1) (up := o.limits.2)
          (msg := "map{" ++ occurDisplay env.fmtF64 o n ++ "}]") (fun w hw => G.map n w c _ hw)
          (fun w hw => ih n w c j hw) (o.limits.2 + 1) 0 w hw).imp fun o y l h => .occur h
    · show (mchfBody env (fns env k) s as w c).Leaves _ _ _
      unfold mchfBody
      cases hk : c.lookupRule env s as with
      | error e => exact Leaves.here (V := mapCopy) (.noOptions _ rfl hk)
      | ok a =>
        obtain ⟨n, c'⟩ := a
        dsimp only
        split
        · rename_i l
          have h5 := choiceLoopS_tries (V := mapCopy) (I := WMap.Inv j) (E := fun _ => True) (c := c') (l := l)
            (g := Node.asOption) (f := mapChoiceifyItem (fns env k) c')
            (msg := "choiceified group of " ++ toString l.length)
            (stop := fun e => !e.isMismatch) (fun _ _ => rfl)
            (fun n _ w hw => by
              unfold mapChoiceifyItem
              split
              · exact G.map _ w c' _ hw
              · exact G.mchf _ _ w c' _ hw
              · exact G.map _ w c' _ hw)
            (fun n _ w hw => by
              cases n <;> first | exact ih _ w c' j hw | exact ihc _ _ w c' j hw) w hw
          exact h5.imp fun o y l h => .options rfl hk h
        · exact (ihc _ _ w c' j hw).imp fun o y l h => .optionsName rfl hk h
        · rename_i h1 h2
          exact Leaves.here (V := mapCopy) (.optionsOther _ rfl hk h1 h2)

theorem lim_tries_arr (n : Node) (w : WArr) (c : Ctx) (j : Nat) (hw : w.Inv j) :
    ((lim env).arr n w c).Leaves arrCopy w (TriesArrayEntry env c n w.array) := by
  obtain ⟨N, h⟩ := (lim_ev env).arr n w c
  rw [← h N (Nat.le_refl _)]
  exact fns_tries_arr hl N n w c j hw

theorem lim_tries_map (n : Node) (w : WMap) (c : Ctx) (j : Nat) (hw : w.Inv j) :
    ((lim env).map n w c).Leaves mapCopy w (TriesMapEntry env c n w.map) := by
  obtain ⟨N, h⟩ := (lim_ev env).map n w c
  rw [← h N (Nat.le_refl _)]
  exact (fns_tries_map hl N).1 n w c j hw

end Main

section Det
variable {σ τ : Type} {env : Env} {simple : Node → Bool} {single : Ctx → Node → σ → Out Unit → σ → List τ → Prop}
  {body : Node → Option (List Node)} {back : List τ → σ → σ → Prop}

theorem TriesAll.det
    (hs : ∀ {c n x o y l o' y' l'}, single c n x o y l → single c n x o' y' l' → o = o' ∧ y = y' ∧ l = l')
    (hb : ∀ {l y z z'}, back l y z → back l y z' → z = z')
    (hi : ∀ n, simple n = true → n.isElement = true)
    {c : Ctx} {ns : List Node} {x : σ} {o : Out Unit} {y : σ} {l : List τ}
    (h : TriesAll env simple single body back c ns x o y l) :
    ∀ o' y' l', TriesAll env simple single body back c ns x o' y' l' → o = o' ∧ y = y' ∧ l = l' := by
  refine TriesAll.rec
    (motive_1 := fun c n x o y l _ => ∀ o' y' l', TriesOne env simple single body back c n x o' y' l' → o = o' ∧ y = y' ∧ l = l')
    (motive_2 := fun c ns x o y l _ => ∀ o' y' l', TriesAll env simple single body back c ns x o' y' l' → o = o' ∧ y = y' ∧ l = l')
    (motive_3 := fun c ns x o y l _ => ∀ o' y' l', TriesFirst env simple single body back c ns x o' y' l' → o = o' ∧ y = y' ∧ l = l')
    (motive_4 := fun c n lo hi x o y l _ => ∀ o' y' l', TriesMany env simple single body back c n lo hi x o' y' l' →
      o = o' ∧ y = y' ∧ l = l')
    ?_ ?_ ?_ ?_ ?_ ?_ ?_ ?_ ?_ ?_ ?_ ?_ ?_ ?_ ?_ ?_ ?_ ?_ ?_ ?_ ?_ ?_ ?_ ?_ ?_ ?_ ?_ ?_ h
  · intro c n x o y l he h1 o' y' l' h'
    cases h' with
    | single _ h2 => exact hs h1 h2
    | options h _ _ => rw [he] at h; cases h
    | optionsName h _ _ => rw [he] at h; cases h
    | optionsOther _ h _ _ => rw [he] at h; cases h
    | noOptions _ h _ => rw [he] at h; cases h
    | inline h _ => rw [he] at h; cases h
    | _ => exact absurd (hi _ he) (by simp [Node.isElement])
  · intro c s as n c' x o y l hk _ ih o' y' l' h'
    cases h' with
    | single he _ => cases hi _ he
    | rule hk' h2 => rw [hk] at hk'; cases hk'; exact ih _ _ _ h2
    | noRule _ hk' => rw [hk] at hk'; cases hk'
  · intro c s as e x hk o' y' l' h'
    cases h' with
    | single he _ => cases hi _ he
    | rule hk' h2 => rw [hk] at hk'; cases hk'
    | noRule _ hk' => rw [hk] at hk'; cases hk'; exact ⟨rfl, rfl, rfl⟩
  · intro c s as n ms c' x o y l hk hb _ ih o' y' l' h'
    cases h' with
    | single he _ => cases hi _ he
    | unwrap hk' hb' h2 => rw [hk] at hk'; cases hk'; rw [hb] at hb'; cases hb'; exact ih _ _ _ h2
    | unwrapOther _ hk' hb' => rw [hk] at hk'; cases hk'; rw [hb] at hb'; cases hb'
    | noUnwrap _ hk' => rw [hk] at hk'; cases hk'
  · intro c s as n c' x hk hb o' y' l' h'
    cases h' with
    | single he _ => cases hi _ he
    | unwrap hk' hb' h2 => rw [hk] at hk'; cases hk'; rw [hb] at hb'; cases hb'
    | unwrapOther _ hk' hb' => exact ⟨rfl, rfl, rfl⟩
    | noUnwrap _ hk' => rw [hk] at hk'; cases hk'
  · intro c s as e x hk o' y' l' h'
    cases h' with
    | single he _ => cases hi _ he
    | unwrap hk' hb' h2 => rw [hk] at hk'; cases hk'
    | unwrapOther _ hk' hb' => rw [hk] at hk'; cases hk'
    | noUnwrap _ hk' => rw [hk] at hk'; cases hk'; exact ⟨rfl, rfl, rfl⟩
  · intro c ns x o y l _ ih o' y' l' h'
    cases h' with
    | single he _ => cases hi _ he
    | choice h2 => exact ih _ _ _ h2
  · intro c ns x y l _ ih o' y' l' h'
    cases h' with
    | single he _ => cases hi _ he
    | group h2 => exact ⟨rfl, (ih _ _ _ h2).2.1, rfl⟩
    | groupFails h2 hf _ => cases (ih _ _ _ h2).1; cases hf
  · intro c ns x o y l z _ hf hz ih o' y' l' h'
    cases h' with
    | single he _ => cases hi _ he
    | group h2 => cases (ih _ _ _ h2).1; cases hf
    | groupFails h2 _ hz' =>
      obtain ⟨rfl, rfl, rfl⟩ := ih _ _ _ h2
      exact ⟨rfl, hb hz hz', rfl⟩
  · intro c n r x o y l _ ih o' y' l' h'
    cases h' with
    | single he _ => cases hi _ he
    | occur h2 => exact ih _ _ _ h2
  · intro c s as ns c' x o y l he hk _ ih o' y' l' h'
    cases h' with
    | single he' _ => rw [he] at he'; cases he'
    | options _ hk' h2 => rw [hk] at hk'; cases hk'; exact ih _ _ _ h2
    | optionsName _ hk' _ => rw [hk] at hk'; cases hk'
    | optionsOther _ _ hk' h1 _ => rw [hk] at hk'; cases hk'; exact absurd rfl (h1 _)
    | noOptions _ _ hk' => rw [hk] at hk'; cases hk'
  · intro c s as s' as' c' x o y l he hk _ ih o' y' l' h'
    cases h' with
    | single he' _ => rw [he] at he'; cases he'
    | options _ hk' h2 => rw [hk] at hk'; cases hk'
    | optionsName _ hk' h2 => rw [hk] at hk'; cases hk'; exact ih _ _ _ h2
    | optionsOther _ _ hk' _ h1 => rw [hk] at hk'; cases hk'; exact absurd rfl (h1 _ _)
    | noOptions _ _ hk' => rw [hk] at hk'; cases hk'
  · intro c s as n c' x he hk h1 h2 o' y' l' h'
    cases h' with
    | single he' _ => rw [he] at he'; cases he'
    | options _ hk' _ => rw [hk] at hk'; cases hk'; exact absurd rfl (h1 _)
    | optionsName _ hk' _ => rw [hk] at hk'; cases hk'; exact absurd rfl (h2 _ _)
    | optionsOther => exact ⟨rfl, rfl, rfl⟩
    | noOptions _ _ hk' => rw [hk] at hk'; cases hk'
  · intro c s as e x he hk o' y' l' h'
    cases h' with
    | single he' _ => rw [he] at he'; cases he'
    | options _ hk' _ => rw [hk] at hk'; cases hk'
    | optionsName _ hk' _ => rw [hk] at hk'; cases hk'
    | optionsOther _ _ hk' _ _ => rw [hk] at hk'; cases hk'
    | noOptions _ _ hk' => rw [hk] at hk'; cases hk'; exact ⟨rfl, rfl, rfl⟩
  · intro c ns x o y l he _ ih o' y' l' h'
    cases h' with
    | single he' _ => rw [he] at he'; cases he'
    | inline _ h2 => exact ih _ _ _ h2
  · intro c x o' y' l' h'
    cases h'; exact ⟨rfl, rfl, rfl⟩
  · intro c n ns x y l o z l1 _ _ ih1 ih2 o' y' l' h'
    cases h' with
    | cons h1' h2' =>
      obtain ⟨_, rfl, rfl⟩ := ih1 _ _ _ h1'
      obtain ⟨rfl, rfl, rfl⟩ := ih2 _ _ _ h2'
      exact ⟨rfl, rfl, rfl⟩
    | fails _ h1' hf => cases (ih1 _ _ _ h1').1; cases hf
  · intro c n x o y l ns _ hf ih o' y' l' h'
    cases h' with
    | cons h1' h2' => cases (ih _ _ _ h1').1; cases hf
    | fails _ h1' _ => exact ih _ _ _ h1'
  · intro c x o' y' l' h'
    cases h'; exact ⟨rfl, rfl, rfl⟩
  · intro c n x y l ns _ ih o' y' l' h'
    cases h' with
    | first _ h1' => exact ih _ _ _ h1'
    | next h1' _ => cases (ih _ _ _ h1').1
    | ends _ h1' he => exact ih _ _ _ h1'
  · intro c n ns x y l o z l1 _ _ ih1 ih2 o' y' l' h'
    cases h' with
    | first _ h1' => cases (ih1 _ _ _ h1').1
    | next h1' h2' =>
      obtain ⟨_, rfl, rfl⟩ := ih1 _ _ _ h1'
      obtain ⟨rfl, rfl, rfl⟩ := ih2 _ _ _ h2'
      exact ⟨rfl, rfl, rfl⟩
    | ends _ h1' he => cases (ih1 _ _ _ h1').1; cases he
  · intro c n x o y l ns _ he ih o' y' l' h'
    cases h' with
    | first _ h1' => exact ih _ _ _ h1'
    | next h1' _ => cases (ih _ _ _ h1').1; cases he
    | ends _ h1' _ => exact ih _ _ _ h1'
  · intro c n lo hi x y l o z l1 _ hh _ ih1 ih2 o' y' l' h'
    cases h' with
    | more h1' _ h2' =>
      obtain ⟨_, rfl, rfl⟩ := ih1 _ _ _ h1'
      obtain ⟨rfl, rfl, rfl⟩ := ih2 _ _ _ h2'
      exact ⟨rfl, rfl, rfl⟩
    | last _ _ _ => omega
    | lastShort _ _ _ => omega
    | enough h1' => cases (ih1 _ _ _ h1').1
    | few h1' _ => cases (ih1 _ _ _ h1').1
    | ends _ _ h1' he => cases (ih1 _ _ _ h1').1; cases he
  · intro c n lo hi x y l _ hh hl ih o' y' l' h'
    cases h' with
    | more _ _ _ => omega
    | last h1' _ _ => exact ih _ _ _ h1'
    | lastShort _ _ _ => omega
    | enough h1' => cases (ih _ _ _ h1').1
    | few h1' _ => cases (ih _ _ _ h1').1
    | ends _ _ h1' _ => exact ih _ _ _ h1'
  · intro c n lo hi x y l _ hh hl ih o' y' l' h'
    cases h' with
    | more _ _ _ => omega
    | last _ _ _ => omega
    | lastShort h1' _ _ => exact ⟨rfl, (ih _ _ _ h1').2⟩
    | enough h1' => cases (ih _ _ _ h1').1
    | few h1' _ => cases (ih _ _ _ h1').1
    | ends _ _ h1' he => cases (ih _ _ _ h1').1; cases he
  · intro c n hi x y l _ ih o' y' l' h'
    cases h' with
    | more h1' _ _ => cases (ih _ _ _ h1').1
    | last h1' _ _ => cases (ih _ _ _ h1').1
    | lastShort h1' _ _ => cases (ih _ _ _ h1').1
    | enough h1' => exact ⟨rfl, (ih _ _ _ h1').2⟩
    | few _ hh => omega
    | ends _ _ h1' he => cases (ih _ _ _ h1').1; cases he
  · intro c n lo hi x y l _ hl ih o' y' l' h'
    cases h' with
    | more h1' _ _ => cases (ih _ _ _ h1').1
    | last h1' _ _ => cases (ih _ _ _ h1').1
    | lastShort h1' _ _ => cases (ih _ _ _ h1').1
    | enough _ => omega
    | few h1' _ => exact ⟨rfl, (ih _ _ _ h1').2⟩
    | ends _ _ h1' he => cases (ih _ _ _ h1').1; cases he
  · intro c n x o y l lo hi _ he ih o' y' l' h'
    cases h' with
    | more h1' _ _ => cases (ih _ _ _ h1').1; cases he
    | last h1' _ _ => exact ih _ _ _ h1'
    | lastShort h1' _ _ => cases (ih _ _ _ h1').1; cases he
    | enough h1' => cases (ih _ _ _ h1').1; cases he
    | few h1' _ => exact ih _ _ _ h1'
    | ends _ _ h1' _ => exact ih _ _ _ h1'

end Det

theorem TriesElement.det {env : Env} {c : Ctx} {n : Node} {x y y' l l' : List Value} {o o' : Out Unit}
    (h : TriesElement env c n x o y l) (h' : TriesElement env c n x o' y' l') : o = o' ∧ y = y' ∧ l = l' := by
  cases h with
  | take _ h1 =>
    cases h' with
    | take _ h2 => exact ⟨rfl, rfl, rfl⟩
    | refuse _ h2 => rw [h1] at h2; cases h2
  | refuse _ h1 =>
    cases h' with
    | take _ h2 => rw [h1] at h2; cases h2
    | refuse _ h2 => rw [h1] at h2; cases h2; exact ⟨rfl, rfl, rfl⟩
  | none => cases h'; exact ⟨rfl, rfl, rfl⟩

theorem TriesPair.det {env : Env} {c : Ctx} {n : Node} {x x' y y' l l' : List (Value × Value)} {o o' : Out Unit} (hm : x = x')
    (h : TriesPair env c n x o y l) (h' : TriesPair env c n x' o' y' l') : o = o' ∧ y = y' ∧ l = l' := by
  cases h with
  | take _ _ h1 h2 h3 =>
    cases h' with
    | take _ _ h1' h2' h3' =>
      obtain ⟨rfl, h4, rfl⟩ := first_unique (P := fun p : Value × Value => validate env p.1 _ c = .ok ()) hm h1 h1' h2 h2'
      cases h4
      exact ⟨rfl, rfl, rfl⟩
    | refuse _ _ h1' h2' h3' =>
      obtain ⟨rfl, h4, rfl⟩ := first_unique (P := fun p : Value × Value => validate env p.1 _ c = .ok ()) hm h1 h1' h2 h2'
      cases h4; rw [h3] at h3'; cases h3'
    | none _ _ h1' => subst hm; exact absurd h2 (h1' _ (by simp; exact .inr (.inl rfl)))
    | misplaced _ h => cases h
  | refuse _ _ h1 h2 h3 =>
    cases h' with
    | take _ _ h1' h2' h3' =>
      obtain ⟨rfl, h4, rfl⟩ := first_unique (P := fun p : Value × Value => validate env p.1 _ c = .ok ()) hm h1 h1' h2 h2'
      cases h4; rw [h3] at h3'; cases h3'
    | refuse _ _ h1' h2' h3' =>
      obtain ⟨rfl, h4, rfl⟩ := first_unique (P := fun p : Value × Value => validate env p.1 _ c = .ok ()) hm h1 h1' h2 h2'
      cases h4; rw [h3] at h3'; cases h3'; exact ⟨rfl, rfl, rfl⟩
    | none _ _ h1' => subst hm; exact absurd h2 (h1' _ (by simp; exact .inr (.inl rfl)))
    | misplaced _ h => cases h
  | none _ _ h1 =>
    cases h' with
    | take _ _ h1' h2' h3' => subst hm; exact absurd h2' (h1 _ (by simp; exact .inr (.inl rfl)))
    | refuse _ _ h1' h2' h3' => subst hm; exact absurd h2' (h1 _ (by simp; exact .inr (.inl rfl)))
    | none _ _ h1' => exact ⟨rfl, hm, rfl⟩
    | misplaced _ h => cases h
  | misplaced _ h1 h2 =>
    cases h' with
    | misplaced _ _ h3 =>
      cases h2 with
      | _ => first | (cases h1; done) | (cases h3; exact ⟨rfl, hm, rfl⟩)
    | _ => cases h1

theorem PairsBack.det {l y z z' : List (Value × Value)} (h : PairsBack l y z) (h' : PairsBack l y z') : z = z' :=
  VMap.PW.ext ((VMap.sorted_iff _).mp h.1) ((VMap.sorted_iff _).mp h'.1) fun p => (h.2 p).trans (h'.2 p).symm

theorem triesArray_det {env : Env} {c : Ctx} {ns : List Node} {x y y' l l' : List Value} {o o' : Out Unit}
    (h : TriesArray env c ns x o y l) (h' : TriesArray env c ns x o' y' l') : o = o' ∧ y = y' ∧ l = l' :=
  TriesAll.det (single := TriesElement env) TriesElement.det (fun h h' => h.trans h'.symm) (fun _ h => h) h _ _ _ h'

theorem triesMap_det {env : Env} {c : Ctx} {ns : List Node} {x y y' l l' : List (Value × Value)} {o o' : Out Unit}
    (h : TriesMap env c ns x o y l) (h' : TriesMap env c ns x o' y' l') : o = o' ∧ y = y' ∧ l = l' :=
  TriesAll.det (simple := Node.isPair) (single := TriesPair env) (back := PairsBack) (TriesPair.det rfl)
    (fun h h' => PairsBack.det h h') (fun n h => by cases n <;> first | rfl | cases h) h _ _ _ h'

end Cddl
