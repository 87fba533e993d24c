import Verif.Spec.Endless

/-! # Types that cannot do without certain rules accept nothing -/

namespace Cddl

variable {S : String → Prop} {env : Env}

/-- Members that need one of the rules are turned down. -/
structure TurnsDown (S : String → Prop) (s : Rec) : Prop where
  val : ∀ {v n c}, n.Needs S → c.Clear S → s.val v n c ≠ .ok ()
  arr : ∀ {n w c w'}, n.Needs S → c.Clear S → s.arr n w c ≠ .ok w'
  map : ∀ {n w c w'}, n.Needs S → c.Clear S → s.map n w c ≠ .ok w'

theorem needsAll_mem : ∀ {l : List Node}, Node.NeedsAll S l → ∀ n ∈ l, n.Needs S
  | [], _, _, hm => by cases hm
  | m :: l, h, n, hm => by
    simp only [Node.NeedsAll] at h
    cases hm with
    | head => exact h.1
    | tail _ hm => exact needsAll_mem h.2 n hm

theorem needsSome_mem : ∀ {l : List Node}, Node.NeedsSome S l → ∃ n ∈ l, n.Needs S
  | [], h => by simp only [Node.NeedsSome] at h
  | m :: l, h => by
    simp only [Node.NeedsSome] at h
    rcases h with h | h
    · exact ⟨m, List.mem_cons_self, h⟩
    · obtain ⟨n, hm, hn⟩ := needsSome_mem h
      exact ⟨n, List.mem_cons_of_mem _ hm, hn⟩

theorem gmapFind_clear {s : String} (hs : S s) : ∀ {g : List (String × Node)}, (∀ p ∈ g, ¬ S p.1) → gmapFind g s = none
  | [], _ => rfl
  | p :: g, h => by
    have ih := gmapFind_clear hs (g := g) fun q hq => h q (List.mem_cons_of_mem _ hq)
    have hp : p.1 ≠ s := fun e => h p List.mem_cons_self (e ▸ hs)
    unfold gmapFind
    simp only [ih, hp, if_false]

/-- A rule that is needed leads to a node that needs one again. -/
theorem lookup_needs (he : Endless S env) {c c' : Ctx} (hc : c.Clear S) {s : String} (hs : S s) {as : List Node} {n : Node}
    (h : c.lookupRule env s as = .ok (n, c')) : n.Needs S ∧ c'.Clear S := by
  have via : ∀ (h : ((env.lookup s).bind fun rd => (c.derive rd as).bind fun c => Except.ok (rd.node, c)) = .ok (n, c')),
      n.Needs S ∧ c'.Clear S := by
    intro h
    cases hl : env.lookup s with
    | error e => rw [hl] at h; cases h
    | ok rd =>
      rw [hl] at h
      simp only [Except.bind] at h
      cases hd : c.derive rd as with
      | error e => rw [hd] at h; cases h
      | ok c1 =>
        rw [hd] at h
        cases h
        refine ⟨he.again s rd hs hl, ?_⟩
        unfold Ctx.derive at hd
        split at hd
        · cases hd
        · cases hi : c.incDepth with
          | error e => rw [hi] at hd; cases hd
          | ok d =>
            rw [hi] at hd
            cases hd
            exact ⟨fun p hp => he.params s rd hl _ (List.of_mem_zip hp).1, hc⟩
  unfold Ctx.lookupRule at h
  cases c with
  | root d => exact via h
  | frame g past d =>
    simp only [gmapFind_clear hs hc.1] at h
    exact via h

theorem choiceLoop_not {f : Node → Res Unit} {msg : String} : ∀ {l : List Node}, (∀ n ∈ l, f n ≠ .ok ()) →
    choiceLoop f msg l ≠ .ok ()
  | [], _ => by simp [choiceLoop]
  | n :: l, h => by
    have ih := choiceLoop_not (f := f) (msg := msg) (l := l) fun m hm => h m (List.mem_cons_of_mem _ hm)
    have hn := h n List.mem_cons_self
    unfold choiceLoop
    cases hf : f n with
    | ok u => exact absurd hf hn
    | err e =>
      simp only
      split
      · simp
      · exact ih
    | panic => simp
    | fuel => simp

theorem choiceLoopS_not {σ : Type} {f : Node → σ → SRes σ} {stop : Err → Bool} {msg : String} : ∀ {l : List Node} {w w' : σ},
    (∀ n ∈ l, ∀ w w', f n w ≠ .ok w') → choiceLoopS f stop msg l w ≠ .ok w'
  | [], _, _, _ => by simp [choiceLoopS]
  | n :: l, w, w', h => by
    have ih : ∀ w, choiceLoopS f stop msg l w ≠ .ok w' :=
      fun w => choiceLoopS_not fun m hm => h m (List.mem_cons_of_mem _ hm)
    have hn := h n List.mem_cons_self w
    unfold choiceLoopS
    cases hf : f n w with
    | ok u => exact absurd hf (hn u)
    | err e w1 =>
      simp only
      split
      · simp
      · exact ih _
    | panic => simp
    | fuel => simp

theorem seqLoopS_not {σ : Type} {f : Node → σ → SRes σ} : ∀ {l : List Node} {w w' : σ},
    (∃ n ∈ l, ∀ w w', f n w ≠ .ok w') → seqLoopS f l w ≠ .ok w'
  | [], _, _, h => by obtain ⟨_, hm, _⟩ := h; cases hm
  | n :: l, w, w', h => by
    unfold seqLoopS
    cases hf : f n w with
    | ok w1 =>
      simp only
      apply seqLoopS_not
      obtain ⟨m, hm, h⟩ := h
      cases hm with
      | head => exact absurd hf (h _ _)
      | tail _ hm => exact ⟨m, hm, h⟩
    | err e w1 => simp
    | panic => simp
    | fuel => simp

theorem occurLoopS_not {σ : Type} {f : σ → SRes σ} {lo up : Nat} {msg : String} (hlo : 1 ≤ lo) (h : ∀ w w', f w ≠ .ok w')
    {k : Nat} {w w' : σ} : occurLoopS f lo up msg k 0 w ≠ .ok w' := by
  cases k with
  | zero => simp [occurLoopS]
  | succ k =>
    unfold occurLoopS
    cases hf : f w with
    | ok w1 => exact absurd hf (h _ _)
    | err e w1 =>
      have : 0 < lo := hlo
      simp only [this, if_true]
      split <;> simp
    | panic => simp
    | fuel => simp

variable {s : Rec}

theorem val_turns (he : Endless S env) (hs : TurnsDown S s) {v : Value} {n : Node} {c : Ctx} (hn : n.Needs S) (hc : c.Clear S) :
    valBody env s v n c ≠ .ok () := by
  cases n with
  | rule name as =>
    simp only [valBody, validateRule]
    cases h : c.lookupRule env name as with
    | error e => simp [Res.ofExcept, Res.bind]
    | ok a =>
      obtain ⟨n', c'⟩ := a
      obtain ⟨h1, h2⟩ := lookup_needs he hc hn h
      exact hs.val h1 h2
  | unwrap name as => simp [valBody]
  | choice l => exact choiceLoop_not fun n hm => hs.val (needsAll_mem hn n hm) hc
  | map l =>
    simp only [valBody, validateMap]
    obtain ⟨m, hm, hm'⟩ := needsSome_mem hn
    cases v with
    | map mm =>
      simp only
      cases h : seqLoopS (fun mem w => s.map mem w c) l (WMap.new mm) with
      | ok w => exact absurd h (seqLoopS_not ⟨m, hm, fun w w' => hs.map hm' hc⟩)
      | err e w => simp
      | panic => simp
      | fuel => simp
    | _ => simp
  | array l =>
    simp only [valBody, validateArray]
    obtain ⟨m, hm, hm'⟩ := needsSome_mem hn
    cases v with
    | array mm =>
      simp only
      cases h : seqLoopS (fun mem w => s.arr mem w c) l (WArr.new mm) with
      | ok w => exact absurd h (seqLoopS_not ⟨m, hm, fun w w' => hs.arr hm' hc⟩)
      | err e w => simp
      | panic => simp
      | fuel => simp
    | _ => simp
  | group l =>
    obtain ⟨m, hm, hm'⟩ := needsSome_mem hn
    simp only [valBody, validateStandaloneGroup]
    split
    · simp only [List.mem_singleton] at hm
      subst hm
      exact hs.val hm' hc
    · simp
  | keyValue k v c => simp [valBody]
  | occur o n => simp [valBody]
  | ctlCbor n =>
    simp only [valBody, validateControlCbor]
    cases v with
    | bytes b =>
      simp only
      cases env.cborDecode b with
      | error e => simp
      | ok d =>
        simp only
        cases d.toValue with
        | error e => simp [Res.ofExcept, Res.bind]
        | ok x => exact hs.val (n := n) hn hc
    | _ => simp
  | _ => exact hn.elim

theorem arrayValue_turns (hs : TurnsDown S s) {n : Node} {w w' : WArr} {c : Ctx} (hn : n.Needs S) (hc : c.Clear S) :
    validateArrayValue env s n w c ≠ .ok w' := by
  unfold validateArrayValue
  split
  · rename_i x _ _
    cases h : s.val x n c with
    | ok u => exact absurd h (hs.val hn hc)
    | err e => simp
    | panic => simp
    | fuel => simp
  · simp

theorem arr_turns (he : Endless S env) (hs : TurnsDown S s) {n : Node} {w w' : WArr} {c : Ctx} (hn : n.Needs S) (hc : c.Clear S) :
    arrBody env s n w c ≠ .ok w' := by
  cases n with
  | rule name as =>
    simp only [arrBody]
    cases h : c.lookupRule env name as with
    | error e => simp
    | ok a =>
      obtain ⟨n', c'⟩ := a
      obtain ⟨h1, h2⟩ := lookup_needs he hc hn h
      exact hs.arr h1 h2
  | unwrap name as =>
    simp only [arrBody]
    cases h : c.lookupRule env name as with
    | error e => simp
    | ok a =>
      obtain ⟨n', c'⟩ := a
      obtain ⟨h1, h2⟩ := lookup_needs he hc hn h
      simp only [validateArrayUnwrap]
      split
      · obtain ⟨m, hm, hm'⟩ := needsSome_mem h1
        exact seqLoopS_not ⟨m, hm, fun w w' => hs.arr hm' h2⟩
      · simp
  | choice l => exact choiceLoopS_not fun n hm w w' => hs.arr (needsAll_mem hn n hm) hc
  | group l =>
    obtain ⟨m, hm, hm'⟩ := needsSome_mem hn
    simp only [arrBody, validateArrayGroup]
    cases h : seqLoopS (fun mem w => s.arr mem w c) l w.snapshot with
    | ok w => exact absurd h (seqLoopS_not ⟨m, hm, fun w w' => hs.arr hm' hc⟩)
    | err e w1 =>
      simp only
      cases hr : w1.rewind with
      | ok w2 => simp
      | err e w2 => simp
      | panic => simp
      | fuel => simp
    | panic => simp
    | fuel => simp
  | keyValue k v cut => exact arrayValue_turns hs (n := v) hn hc
  | occur o n =>
    cases o with
    | oneOrMore => exact occurLoopS_not (by simp [OccurLimit.limits]) fun w w' => hs.arr (n := n) hn hc
    | numbered lo up => exact occurLoopS_not hn.1 fun w w' => hs.arr (n := n) hn.2 hc
    | _ => exact hn.elim
  | map l => exact arrayValue_turns hs (n := .map l) hn hc
  | array l => exact arrayValue_turns hs (n := .array l) hn hc
  | ctlCbor n => exact arrayValue_turns hs (n := .ctlCbor n) hn hc
  | _ => exact hn.elim

theorem map_turns (he : Endless S env) (hs : TurnsDown S s) {n : Node} {w w' : WMap} {c : Ctx} (hn : n.Needs S) (hc : c.Clear S) :
    mapBody env s n w c ≠ .ok w' := by
  cases n with
  | rule name as =>
    simp only [mapBody]
    cases h : c.lookupRule env name as with
    | error e => simp
    | ok a =>
      obtain ⟨n', c'⟩ := a
      obtain ⟨h1, h2⟩ := lookup_needs he hc hn h
      exact hs.map h1 h2
  | unwrap name as =>
    simp only [mapBody]
    cases h : c.lookupRule env name as with
    | error e => simp
    | ok a =>
      obtain ⟨n', c'⟩ := a
      obtain ⟨h1, h2⟩ := lookup_needs he hc hn h
      simp only [validateMapUnwrap]
      split
      · obtain ⟨m, hm, hm'⟩ := needsSome_mem h1
        exact seqLoopS_not ⟨m, hm, fun w w' => hs.map hm' h2⟩
      · simp
  | choice l => exact choiceLoopS_not fun n hm w w' => hs.map (needsAll_mem hn n hm) hc
  | group l =>
    obtain ⟨m, hm, hm'⟩ := needsSome_mem hn
    simp only [mapBody, validateMapGroup]
    cases h : seqLoopS (fun mem w => s.map mem w c) l w.snapshot with
    | ok w => exact absurd h (seqLoopS_not ⟨m, hm, fun w w' => hs.map hm' hc⟩)
    | err e w1 =>
      simp only
      cases hr : w1.rewind with
      | ok w2 => simp
      | err e w2 => simp
      | panic => simp
      | fuel => simp
    | panic => simp
    | fuel => simp
  | keyValue k v cut =>
    simp only [mapBody, validateMapKeyvalue]
    cases validateMapKey env s k w c with
    | ok p =>
      obtain ⟨x, y⟩ := p
      simp only
      cases h : s.val y v c with
      | ok u => exact absurd h (hs.val (n := v) hn hc)
      | err e => simp only; split <;> simp
      | panic => simp
      | fuel => simp
    | err e => simp
    | panic => simp
    | fuel => simp
  | occur o n =>
    cases o with
    | oneOrMore => exact occurLoopS_not (by simp [OccurLimit.limits]) fun w w' => hs.map (n := n) hn hc
    | numbered lo up => exact occurLoopS_not hn.1 fun w w' => hs.map (n := n) hn.2 hc
    | _ => exact hn.elim
  | map l => simp [mapBody]
  | array l => simp [mapBody]
  | ctlCbor n => simp [mapBody]
  | _ => exact hn.elim

theorem fns_turns (he : Endless S env) : ∀ k, TurnsDown S (fns env k)
  | 0 => ⟨by simp [fns, Rec.bot], by simp [fns, Rec.bot], by simp [fns, Rec.bot]⟩
  | k + 1 => ⟨val_turns he (fns_turns he k), arr_turns he (fns_turns he k), map_turns he (fns_turns he k)⟩

end Cddl
