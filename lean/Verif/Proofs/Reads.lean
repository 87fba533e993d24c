import Verif.Spec.Reads
import Verif.Proofs.SoundMain
import Verif.Props.C20

/-! # The validator reads arrays and maps from left to right -/

namespace Cddl

/-- The result, with the working copy seen by `view`, is as `P` says. -/
def SRes.Shows {w σ : Type} (view : w → σ) (P : Out σ → Prop) : SRes w → Prop
  | .ok w => P (.took (view w))
  | .err e _ => P (.ofErr e)
  | _ => True

theorem Out.ofErr_failed {σ : Type} (e : Err) : (Out.ofErr e : Out σ).failed = true := by cases e <;> rfl
theorem Out.ofErr_no {σ : Type} {e : Err} (h : e.isMismatch = true) : (Out.ofErr e : Out σ) = .no := by
  cases e <;> first | rfl | cases h
theorem Out.ofErr_ends {σ : Type} {e : Err} (h : e.isMismatch = false) : (Out.ofErr e : Out σ).ends = true := by
  cases e <;> first | rfl | cases h
theorem Out.ofErr_erase {σ : Type} (e : Err) : (Out.ofErr e.eraseMapcut : Out σ) = (Out.ofErr e).ofGroup := by
  cases e <;> rfl

section Loops
variable {W σ : Type} {view : W → σ} {I : W → Prop} {E : Err → Prop} {env : Env}
  {single : Ctx → Node → σ → Out σ → Prop} {body : Node → Option (List Node)} {c : Ctx}

theorem seqLoopS_reads {f : Node → W → SRes W} : ∀ {l : List Node}, (∀ n ∈ l, ∀ w, I w → (f n w).Safe E I) →
    (∀ n ∈ l, ∀ w, I w → (f n w).Shows view (ReadsOne env single body c n (view w))) → ∀ w, I w →
    (seqLoopS f l w).Shows view (ReadsAll env single body c l (view w))
  | [], _, _, w, _ => .nil _ _
  | n :: ns, hs, hg, w, hw => by
    have h1 := hs n (by simp) w hw
    have h2 := hg n (by simp) w hw
    simp only [seqLoopS]
    cases hf : f n w with
    | ok w1 =>
      rw [hf] at h1 h2
      have ih := seqLoopS_reads (l := ns) (fun m hm => hs m (List.mem_cons_of_mem _ hm))
        (fun m hm => hg m (List.mem_cons_of_mem _ hm)) w1 h1
      dsimp only
      revert ih
      cases seqLoopS f ns w1 with
      | ok w2 => exact fun ih => .cons h2 ih
      | err e w2 => exact fun ih => .cons h2 ih
      | _ => exact fun _ => trivial
    | err e w1 => rw [hf] at h2; exact .fails _ h2 (Out.ofErr_failed e)
    | _ => trivial

theorem choiceLoopS_reads {f : Node → W → SRes W} {stop : Err → Bool} {msg : String} (hst : ∀ e, E e → stop e = !e.isMismatch) :
    ∀ {l : List Node} (w : W), (∀ n ∈ l, (f n w).Safe E I) →
      (∀ n ∈ l, (f n w).Shows view (ReadsOne env single body c n (view w))) → (∀ n ∈ l.dropLast, (f n w).FailsAt w) →
      (choiceLoopS f stop msg l w).Shows view (ReadsFirst env single body c l (view w))
  | [], _, _, _, _ => .nil _ _
  | n :: ns, w, hs, hg, ha => by
    have h1 := hs n (by simp)
    have h2 := hg n (by simp)
    simp only [choiceLoopS]
    cases hf : f n w with
    | ok w1 => rw [hf] at h2; exact .first _ h2
    | err e w1 =>
      rw [hf] at h1 h2
      dsimp only
      rw [hst e h1.1]
      cases hm : e.isMismatch with
      | false => exact .ends _ h2 (Out.ofErr_ends hm)
      | true =>
        have h2 : ReadsOne env single body c n (view w) .no := by
          rw [← Out.ofErr_no hm]; exact h2
        simp only [Bool.not_true, Bool.false_eq_true, if_false]
        cases ns with
        | nil => exact .next h2 (.nil _ _)
        | cons m ms =>
          have h3 := ha n (by simp)
          rw [hf] at h3
          obtain rfl := h3 (isMismatch_nonfatal hm)
          have ih := choiceLoopS_reads hst w1 (fun m hm => hs m (List.mem_cons_of_mem _ hm))
            (fun m hm => hg m (List.mem_cons_of_mem _ hm))
            (fun x hx => ha x (by simp only [List.dropLast_cons_cons, List.mem_cons]; exact .inr hx)) (msg := msg)
          revert ih
          cases choiceLoopS f stop msg (m :: ms) w1 with
          | ok w2 => exact fun ih => .next h2 ih
          | err e w2 => exact fun ih => .next h2 ih
          | _ => exact fun _ => trivial
    | _ => trivial

theorem occurLoopS_reads {f : W → SRes W} {n : Node} {lo up : Nat} {msg : String} (hs : ∀ w, I w → (f w).Safe E I)
    (hg : ∀ w, I w → (f w).Shows view (ReadsOne env single body c n (view w))) (ha : ∀ w, I w → (f w).FailsAt w) :
    ∀ (k cnt : Nat) (w : W), I w → (occurLoopS f lo up msg k cnt w).Shows view
      (ReadsMany env single body c n (lo - cnt) (up - cnt) (view w))
  | 0, _, _, _ => trivial
  | k + 1, cnt, w, hw => by
    have h1 := hs w hw
    have h2 := hg w hw
    have h3 := ha w hw
    simp only [occurLoopS]
    cases hf : f w with
    | ok w1 =>
      rw [hf] at h1 h2
      dsimp only
      split
      · split
        · exact .lastShort h2 (by omega) (by omega)
        · exact .last h2 (by omega) (by omega)
      · have ih := occurLoopS_reads hs hg ha (lo := lo) (up := up) (msg := msg) k (cnt + 1) w1 h1
        rw [Nat.sub_add_eq, Nat.sub_add_eq] at ih
        revert ih
        cases occurLoopS f lo up msg k (cnt + 1) w1 with
        | ok w2 => exact fun ih => .more h2 (by omega) ih
        | err e w2 => exact fun ih => .more h2 (by omega) ih
        | _ => exact fun _ => trivial
    | err e w1 =>
      rw [hf] at h2 h3
      dsimp only
      cases hm : e.isMismatch with
      | false => exact .ends _ _ h2 (Out.ofErr_ends hm)
      | true =>
        obtain rfl := h3 (isMismatch_nonfatal hm)
        have h2 : ReadsOne env single body c n (view w1) .no := by
          rw [← Out.ofErr_no hm]; exact h2
        simp only [if_true]
        split
        · exact .few h2 (by omega)
        · rw [show lo - cnt = 0 by omega]; exact .enough h2
    | _ => trivial

end Loops

/-- With a budget, the result is that of the limit or there is none. -/
theorem fns_arr_lim (env : Env) (k : Nat) (n : Node) (w : WArr) (c : Ctx) :
    (fns env k).arr n w c = .fuel ∨ (fns env k).arr n w c = (lim env).arr n w c := by
  obtain ⟨N, hN⟩ := (lim_ev env).arr n w c
  rcases (fns_mono env (Nat.le_max_left k N)).arr n w c with h | h
  · exact .inl h
  · exact .inr (h.trans (hN _ (Nat.le_max_right k N)))

theorem fns_map_lim (env : Env) (k : Nat) (n : Node) (w : WMap) (c : Ctx) :
    (fns env k).map n w c = .fuel ∨ (fns env k).map n w c = (lim env).map n w c := by
  obtain ⟨N, hN⟩ := (lim_ev env).map n w c
  rcases (fns_mono env (Nat.le_max_left k N)).map n w c with h | h
  · exact .inl h
  · exact .inr (h.trans (hN _ (Nat.le_max_right k N)))

/-- A single entry of an array. -/
theorem single_element (env : Env) {n : Node} (hn : n.isElement = true) (w : WArr) (c : Ctx) :
    ((lim env).arr n w c).Shows WArr.array (FirstElement env c n w.array) := by
  have h : (lim env).arr n w c = validateArrayValue env (lim env) n.entryOf w c := by
    rw [arr_eq]
    cases n <;> first | rfl | cases hn
  rw [h]
  unfold validateArrayValue
  split
  · rename_i v xs hw
    rw [hw]
    cases hv : (lim env).val v n.entryOf c with
    | ok =>
      dsimp only
      unfold WArr.popFront
      rw [hw]
      dsimp only
      split <;> exact .take _ hv
    | err e => exact .refuse _ hv
    | _ => trivial
  · rename_i hw
    rw [hw]
    exact .none _ _

theorem mapSearchLoop_split {f : Value → Res Unit} {msg : String} : ∀ {m : VMap} {p : Value × Value},
    mapSearchLoop f msg m = .ok p → ∃ pre post, m = pre ++ p :: post ∧ (∀ q ∈ pre, f q.1 ≠ .ok ()) ∧ f p.1 = .ok ()
  | [], _, h => by cases h
  | (k, v) :: t, p, h => by
    simp only [mapSearchLoop] at h
    cases hf : f k with
    | ok a => rw [hf] at h; cases h; exact ⟨[], t, rfl, nofun, hf⟩
    | err e =>
      rw [hf] at h
      obtain ⟨pre, post, rfl, h1, h2⟩ := mapSearchLoop_split h
      refine ⟨(k, v) :: pre, post, rfl, fun q hq => ?_, h2⟩
      rcases List.mem_cons.mp hq with rfl | hq
      · intro h; rw [hf] at h; cases h
      · exact h1 q hq
    | panic => rw [hf] at h; cases h
    | fuel => rw [hf] at h; cases h

theorem mapSearchLoop_no {f : Value → Res Unit} {msg : String} : ∀ {m : VMap} {e : Err},
    mapSearchLoop f msg m = .err e → e = .mismatch msg ∧ ∀ q ∈ m, f q.1 ≠ .ok ()
  | [], _, h => by cases h; exact ⟨rfl, nofun⟩
  | (k, v) :: t, p, h => by
    simp only [mapSearchLoop] at h
    cases hf : f k with
    | ok a => rw [hf] at h; cases h
    | err e =>
      rw [hf] at h
      obtain ⟨h0, h1⟩ := mapSearchLoop_no h
      refine ⟨h0, fun q hq => ?_⟩
      rcases List.mem_cons.mp hq with rfl | hq
      · intro h; rw [hf] at h; cases h
      · exact h1 q hq
    | panic => rw [hf] at h; cases h
    | fuel => rw [hf] at h; cases h

/-- The pair that is found is the first whose key is of the type. -/
theorem mapKey_split {env : Env} {c : Ctx} {k : Node} {w : WMap} (hw : VMap.PW w.map) {p : Value × Value}
    (h : validateMapKey env (lim env) k w c = .ok p) : ∃ pre post, w.map = pre ++ p :: post ∧
      (∀ q ∈ pre, validate env q.1 k c ≠ .ok ()) ∧ validate env p.1 k c = .ok () := by
  cases k with
  | literal l =>
    obtain ⟨h1, h2⟩ := mapKey_ok hw h
    obtain ⟨pre, post, hm⟩ := List.append_of_mem h1
    refine ⟨pre, post, hm, fun q hq h3 => ?_, h2⟩
    have h4 : q.1 = p.1 := (literal_accepts.mp h3).trans (literal_accepts.mp h2).symm
    rw [hm] at hw
    have h5 := (List.pairwise_append.mp hw).2.2 q hq p (by simp)
    rw [h4, (Value.cmp_eq _ _).mpr rfl] at h5
    cases h5
  | _ => exact mapSearchLoop_split h

theorem mapKey_no {env : Env} {c : Ctx} {k : Node} {w : WMap} (hw : VMap.PW w.map) {e : Err}
    (h : validateMapKey env (lim env) k w c = .err e) : (∃ m, e = .mismatch m) ∧ ∀ q ∈ w.map, validate env q.1 k c ≠ .ok () := by
  cases k with
  | literal l =>
    simp only [validateMapKey, mapSearchLiteral] at h
    split at h
    · cases h
    · rename_i hg
      cases h
      refine ⟨⟨_, rfl⟩, fun q hq h3 => ?_⟩
      obtain ⟨x, v⟩ := q
      obtain rfl := literal_accepts.mp h3
      exact (VMap.get_none hw).mp hg v hq
  | _ => exact ⟨⟨_, (mapSearchLoop_no h).1⟩, (mapSearchLoop_no h).2⟩

theorem without_split {pre post : VMap} {x v : Value} (hw : VMap.PW (pre ++ (x, v) :: post)) :
    (VMap.without (pre ++ (x, v) :: post) x) = pre ++ post := by
  obtain ⟨h1, h2, h3⟩ := List.pairwise_append.mp hw
  have ha : VMap.without pre x = pre := VMap.without_eq_self fun v' hv => by
    have := h3 _ hv (x, v) (by simp)
    rw [(Value.cmp_eq _ _).mpr rfl] at this; cases this
  have hb : VMap.without post x = post := VMap.without_eq_self fun v' hv => by
    have := (List.pairwise_cons.mp h2).1 _ hv
    rw [(Value.cmp_eq _ _).mpr rfl] at this; cases this
  unfold VMap.without at *
  rw [List.filter_append, List.filter_cons, ha, hb]
  simp

/-- A single entry of a map. -/
theorem single_pair (env : Env) {n : Node} (hn : n.isElement = true) (hn' : ∀ s as, n ≠ .choiceify s as)
    (hn'' : ∀ l, n ≠ .choiceifyInline l) {w : WMap} (hw : VMap.PW w.map) (c : Ctx) :
    ((lim env).map n w c).Shows WMap.map (FirstPair env c n w.map) := by
  rw [map_eq]
  cases n with
  | keyValue k t cut =>
    simp only [mapBody, validateMapKeyvalue]
    cases hk : validateMapKey env (lim env) k w c with
    | ok p =>
      obtain ⟨x, v⟩ := p
      obtain ⟨pre, post, hm, h1, h2⟩ := mapKey_split hw hk
      dsimp only
      rw [hm] at hw ⊢
      cases hv : (lim env).val v t c with
      | ok =>
        dsimp only
        unfold WMap.remove
        rw [hm, VMap.remove_some hw (v := v) (by simp), without_split hw]
        dsimp only
        split <;> exact .take _ _ h1 h2 hv
      | err e =>
        have h3 := FirstPair.refuse cut post h1 h2 hv
        cases cut <;> cases e <;> exact h3
      | _ => trivial
    | err e =>
      obtain ⟨⟨m, rfl⟩, h1⟩ := mapKey_no hw hk
      exact .none _ _ h1
    | _ => trivial
  | choiceify s as => exact absurd rfl (hn' s as)
  | choiceifyInline l => exact absurd rfl (hn'' l)
  | occur | rule | unwrap | choice | group => cases hn
  | literal l => exact .misplaced _ rfl (.literal l)
  | «prelude» l => exact .misplaced _ rfl (.prelude l)
  | map l => exact .misplaced _ rfl (.map l)
  | array l => exact .misplaced _ rfl (.array l)
  | range a b i => exact .misplaced _ rfl (.range a b i)
  | ctl a b i => exact .misplaced _ rfl (.control a b i)
  | ctlRegexp l => exact .misplaced _ rfl (.regexp l)
  | ctlCbor l => exact .misplaced _ rfl (.cbor l)

section Main
variable {env : Env} {J : Judgement} (hl : ∀ s e, env.lookup s = .error e → e.isFatal = true) (hJ : J.Agrees env)
include hl hJ

theorem fns_reads_arr : ∀ (k : Nat) (n : Node) (w : WArr) (c : Ctx) (j : Nat), ScopeOk J c → w.Inv j →
    (n.kind J .item).sound = true →
    ((fns env k).arr n w c).Shows WArr.array (ReadsOne env (FirstElement env) Node.arrayEntries c n w.array)
  | 0, _, _, _, _, _, _, _ => trivial
  | k + 1, n, w, c, j, hc, hw, hn => by
    have G := fns_good (plainErr_ok hl) k
    have S := fns_sound hl hJ k
    have ih := fns_reads_arr k
    have stop : ∀ e : Err, PlainErr e → e.isFatal = !e.isMismatch := by
      intro e he
      cases hf : e.isFatal with
      | false => rw [he hf]; rfl
      | true => cases e <;> first | rfl | cases hf
    by_cases he : n.isElement = true
    · have h1 := single_element env he w c
      rcases fns_arr_lim env (k + 1) n w c with h | h
      · rw [h]; trivial
      · rw [h]
        revert h1
        cases (lim env).arr n w c with
        | ok w' => exact fun h1 => .single he h1
        | err e w' => exact fun h1 => .single he h1
        | _ => exact fun _ => trivial
    show (arrBody env (fns env k) n w c).Shows _ _
    cases n <;> first | exact absurd rfl he | skip
    case rule s as =>
      simp only [arrBody]
      cases hk : c.lookupRule env s as with
      | error e => exact .noRule _ hk
      | ok a =>
        obtain ⟨n, c'⟩ := a
        simp only [Node.kind] at hn
        split at hn
        · rename_i ha
          obtain ⟨h2, hc', h3⟩ := look_sound hJ hc ha hk
          have hle : (J.entry .item s).le (n.kind J .item) := by
            rcases h3 with ⟨h3, _⟩ | ⟨d, hd, rfl, h3⟩
            · rw [h3.2.1]; exact ⟨fun _ => rfl, fun _ => rfl, fun _ => rfl, fun _ => rfl⟩
            · exact h3.entry _
          have h4 := ih n w c' j hc' hw (hle.1 hn)
          dsimp only
          revert h4
          cases (fns env k).arr n w c' with
          | ok w' => exact fun h4 => .rule hk h4
          | err e w' => exact fun h4 => .rule hk h4
          | _ => exact fun _ => trivial
        · cases hn
    case unwrap s as =>
      simp only [arrBody]
      cases hk : c.lookupRule env s as with
      | error e => exact .noUnwrap _ hk
      | ok a =>
        obtain ⟨n, c'⟩ := a
        simp only [Node.kind] at hn
        split at hn
        · rename_i ha
          obtain ⟨h2, hc', h3⟩ := look_sound hJ hc ha hk
          unfold validateArrayUnwrap
          dsimp only
          split
          · rename_i l
            have hle : (J.unwrap .item s).le (.seq (Node.kinds J .item l)) := by
              rcases h3 with ⟨_, h3⟩ | ⟨d, hd, hn, h3⟩
              · rw [h3.2.1]
                exact ⟨(fun h => by cases h), (fun h => by cases h), (fun h => by cases h), (fun h => by cases h)⟩
              · exact h3.unwrapArray _ hn
            have h4 := kinds_all (hle.1 hn)
            have h5 := seqLoopS_reads (view := WArr.array) (I := WArr.Inv j) (E := PlainErr) (c := c') (l := l)
              (f := fun m w => (fns env k).arr m w c') (fun n _ w hw => G.arr n w c' _ hw)
              (fun n hn w hw => ih n w c' j hc' hw (h4 n hn)) w hw
            revert h5
            cases seqLoopS (fun m w => (fns env k).arr m w c') l w with
            | ok w' => exact fun h5 => .unwrap hk rfl h5
            | err e w' => exact fun h5 => .unwrap hk rfl h5
            | _ => exact fun _ => trivial
          · rename_i h5
            refine .unwrapOther _ hk ?_
            cases n <;> first | rfl | exact absurd rfl (h5 _)
        · cases hn
    case choice l =>
      simp only [arrBody]
      simp only [Node.kind, Kind.choice, Bool.and_eq_true] at hn
      have h1 := kinds_all hn.1
      have h2 := kinds_dropLast hn.2
      have h5 := choiceLoopS_reads (view := WArr.array) (I := WArr.Inv j) (E := PlainErr) (c := c) (l := l)
        (f := fun m w => (fns env k).arr m w c) (msg := "choice of " ++ toString l.length) stop w
        (fun n _ => G.arr n w c _ hw) (fun n hn => ih n w c j hc hw (h1 n hn))
        (fun n hn => (S.arr n w c _ hc hw).fails (h2 n hn))
      revert h5
      cases choiceLoopS (fun m w => (fns env k).arr m w c) Err.isFatal ("choice of " ++ toString l.length) l w with
      | ok w' => exact fun h5 => .choice h5
      | err e w' => exact fun h5 => .choice h5
      | _ => exact fun _ => trivial
    case group l =>
      simp only [arrBody, validateArrayGroup]
      simp only [Node.kind, Kind.group] at hn
      have h1 := kinds_all hn
      have h5 := seqLoopS_reads (view := WArr.array) (I := WArr.Inv (j + 1)) (E := PlainErr) (c := c) (l := l)
        (f := fun m w => (fns env k).arr m w c) (fun n _ w hw => G.arr n w c _ hw)
        (fun n hn w hw => ih n w c (j + 1) hc hw (h1 n hn)) w.snapshot hw.snapshot
      have h6 := seqLoopS_safe (E := PlainErr) (I := WArr.Inv (j + 1)) (f := fun m w => (fns env k).arr m w c) l w.snapshot
        hw.snapshot (fun n _ w hw => G.arr n w c _ hw)
      revert h5 h6
      cases seqLoopS (fun m w => (fns env k).arr m w c) l w.snapshot with
      | ok w' =>
        intro h5 h6
        dsimp only
        unfold WArr.commit
        split
        · trivial
        · exact .group (o := .took w'.array) h5
      | err e w' =>
        intro h5 h6
        dsimp only
        unfold WArr.rewind
        cases w'.snaps with
        | nil => trivial
        | cons s ss =>
          have h7 := ReadsOne.group h5
          rw [← Out.ofErr_erase] at h7
          have h8 := stop e h6.1
          cases e <;> first | exact h7 | cases h8
      | _ => exact fun _ _ => trivial
    case occur o n =>
      simp only [arrBody, validateArrayOccur]
      simp only [Node.kind, Kind.occur, Bool.and_eq_true] at hn
      have h5 := occurLoopS_reads (view := WArr.array) (I := WArr.Inv j) (E := PlainErr) (c := c) (n := n)
        (f := fun w => (fns env k).arr n w c) (lo := o.limits.1) (up := o.limits.2)
        (msg := "more array element [" ++ occurDisplay env.fmtF64 o n ++ "]") (fun w hw => G.arr n w c _ hw)
        (fun w hw => ih n w c j hc hw hn.1.1) (fun w hw => (S.arr n w c _ hc hw).fails hn.1.2) (o.limits.2 + 1) 0 w hw
      revert h5
      cases occurLoopS (fun w => (fns env k).arr n w c) o.limits.1 o.limits.2
        ("more array element [" ++ occurDisplay env.fmtF64 o n ++ "]") (o.limits.2 + 1) 0 w with
      | ok w' => exact fun h5 => .occur h5
      | err e w' => exact fun h5 => .occur h5
      | _ => exact fun _ => trivial

theorem fns_reads_map : ∀ (k : Nat) (n : Node) (w : WMap) (c : Ctx) (j : Nat), ScopeOk J c → w.Inv j →
    (n.kind J .member).sound = true →
    ((fns env k).map n w c).Shows WMap.map (ReadsOne env (FirstPair env) Node.mapEntries c n w.map)
  | 0, _, _, _, _, _, _, _ => trivial
  | k + 1, n, w, c, j, hc, hw, hn => by
    have G := fns_good (plainErr_ok hl) k
    have S := fns_sound hl hJ k
    have ih := fns_reads_map k
    by_cases he : n.isElement = true
    · have h1 := single_pair env he (by rintro s as rfl; cases hn) (by rintro l rfl; cases hn) hw.1 c
      rcases fns_map_lim env (k + 1) n w c with h | h
      · rw [h]; trivial
      · rw [h]
        revert h1
        cases (lim env).map n w c with
        | ok w' => exact fun h1 => .single he h1
        | err e w' => exact fun h1 => .single he h1
        | _ => exact fun _ => trivial
    show (mapBody env (fns env k) n w c).Shows _ _
    cases n <;> first | exact absurd rfl he | skip
    case rule s as =>
      simp only [mapBody]
      cases hk : c.lookupRule env s as with
      | error e => exact .noRule _ hk
      | ok a =>
        obtain ⟨n, c'⟩ := a
        simp only [Node.kind] at hn
        split at hn
        · rename_i ha
          obtain ⟨h2, hc', h3⟩ := look_sound hJ hc ha hk
          have hle : (J.entry .member s).le (n.kind J .member) := by
            rcases h3 with ⟨h3, _⟩ | ⟨d, hd, rfl, h3⟩
            · rw [h3.2.2]; exact ⟨fun _ => rfl, fun _ => rfl, fun _ => rfl, fun _ => rfl⟩
            · exact h3.entry _
          have h4 := ih n w c' j hc' hw (hle.1 hn)
          dsimp only
          revert h4
          cases (fns env k).map n w c' with
          | ok w' => exact fun h4 => .rule hk h4
          | err e w' => exact fun h4 => .rule hk h4
          | _ => exact fun _ => trivial
        · cases hn
    case unwrap s as =>
      simp only [mapBody]
      cases hk : c.lookupRule env s as with
      | error e => exact .noUnwrap _ hk
      | ok a =>
        obtain ⟨n, c'⟩ := a
        simp only [Node.kind] at hn
        split at hn
        · rename_i ha
          obtain ⟨h2, hc', h3⟩ := look_sound hJ hc ha hk
          unfold validateMapUnwrap
          dsimp only
          split
          · rename_i l
            have hle : (J.unwrap .member s).le (.seq (Node.kinds J .member l)) := by
              rcases h3 with ⟨_, h3⟩ | ⟨d, hd, hn, h3⟩
              · rw [h3.2.2]
                exact ⟨(fun h => by cases h), (fun h => by cases h), (fun h => by cases h), (fun h => by cases h)⟩
              · exact h3.unwrapMap _ hn
            have h4 := kinds_all (hle.1 hn)
            have h5 := seqLoopS_reads (view := WMap.map) (I := WMap.Inv j) (E := fun _ => True) (c := c') (l := l)
              (f := fun m w => (fns env k).map m w c') (fun n _ w hw => G.map n w c' _ hw)
              (fun n hn w hw => ih n w c' j hc' hw (h4 n hn)) w hw
            revert h5
            cases seqLoopS (fun m w => (fns env k).map m w c') l w with
            | ok w' => exact fun h5 => .unwrap hk rfl h5
            | err e w' => exact fun h5 => .unwrap hk rfl h5
            | _ => exact fun _ => trivial
          · rename_i h5
            refine .unwrapOther _ hk ?_
            cases n <;> first | rfl | exact absurd rfl (h5 _)
        · cases hn
    case choice l =>
      simp only [mapBody, validateMapChoice]
      simp only [Node.kind, Kind.choice, Bool.and_eq_true] at hn
      have h1 := kinds_all hn.1
      have h2 := kinds_dropLast hn.2
      have h5 := choiceLoopS_reads (view := WMap.map) (I := WMap.Inv j) (E := fun _ => True) (c := c) (l := l)
        (f := fun m w => (fns env k).map m w c) (msg := "choice of " ++ toString l.length)
        (stop := fun e => !e.isMismatch) (fun _ _ => rfl) w
        (fun n _ => G.map n w c _ hw) (fun n hn => ih n w c j hc hw (h1 n hn))
        (fun n hn => (S.map n w c _ hc hw).fails (h2 n hn))
      revert h5
      cases choiceLoopS (fun m w => (fns env k).map m w c) (fun e => !e.isMismatch) ("choice of " ++ toString l.length) l w with
      | ok w' => exact fun h5 => .choice h5
      | err e w' => exact fun h5 => .choice h5
      | _ => exact fun _ => trivial
    case group l =>
      simp only [mapBody, validateMapGroup]
      simp only [Node.kind, Kind.group] at hn
      have h1 := kinds_all hn
      have h5 := seqLoopS_reads (view := WMap.map) (I := WMap.Inv (j + 1)) (E := fun _ => True) (c := c) (l := l)
        (f := fun m w => (fns env k).map m w c) (fun n _ w hw => G.map n w c _ hw)
        (fun n hn w hw => ih n w c (j + 1) hc hw (h1 n hn)) w.snapshot hw.snapshot
      revert h5
      cases seqLoopS (fun m w => (fns env k).map m w c) l w.snapshot with
      | ok w' =>
        intro h5
        dsimp only
        unfold WMap.commit
        split
        · trivial
        · exact .group (o := .took w'.map) h5
      | err e w' =>
        intro h5
        dsimp only
        unfold WMap.rewind
        cases w'.snaps with
        | nil => trivial
        | cons s ss =>
          have h7 := ReadsOne.group h5
          rw [← Out.ofErr_erase] at h7
          exact h7
      | _ => exact fun _ => trivial
    case occur o n =>
      simp only [mapBody, validateMapOccur]
      simp only [Node.kind, Kind.occur, Bool.and_eq_true] at hn
      have h5 := occurLoopS_reads (view := WMap.map) (I := WMap.Inv j) (E := fun _ => True) (c := c) (n := n)
        (f := fun w => (fns env k).map n w c) (lo := o.limits.1) (up := o.limits.2)
        (msg := "map{" ++ occurDisplay env.fmtF64 o n ++ "}]") (fun w hw => G.map n w c _ hw)
        (fun w hw => ih n w c j hc hw hn.1.1) (fun w hw => (S.map n w c _ hc hw).fails hn.1.2) (o.limits.2 + 1) 0 w hw
      revert h5
      cases occurLoopS (fun w => (fns env k).map n w c) o.limits.1 o.limits.2
        ("map{" ++ occurDisplay env.fmtF64 o n ++ "}]") (o.limits.2 + 1) 0 w with
      | ok w' => exact fun h5 => .occur h5
      | err e w' => exact fun h5 => .occur h5
      | _ => exact fun _ => trivial

theorem lim_reads_arr (n : Node) (w : WArr) (c : Ctx) (j : Nat) (hc : ScopeOk J c) (hw : w.Inv j)
    (hn : (n.kind J .item).sound = true) :
    ((lim env).arr n w c).Shows WArr.array (ReadsOne env (FirstElement env) Node.arrayEntries c n w.array) := by
  obtain ⟨N, h⟩ := (lim_ev env).arr n w c
  rw [← h N (Nat.le_refl _)]
  exact fns_reads_arr hl hJ N n w c j hc hw hn

theorem lim_reads_map (n : Node) (w : WMap) (c : Ctx) (j : Nat) (hc : ScopeOk J c) (hw : w.Inv j)
    (hn : (n.kind J .member).sound = true) :
    ((lim env).map n w c).Shows WMap.map (ReadsOne env (FirstPair env) Node.mapEntries c n w.map) := by
  obtain ⟨N, h⟩ := (lim_ev env).map n w c
  rw [← h N (Nat.le_refl _)]
  exact fns_reads_map hl hJ N n w c j hc hw hn

end Main

section Det
variable {σ : Type} {env : Env} {single : Ctx → Node → σ → Out σ → Prop} {body : Node → Option (List Node)}

theorem ReadsAll.det (hs : ∀ {c n x o o'}, single c n x o → single c n x o' → o = o') {c : Ctx} {l : List Node} {x : σ}
    {o : Out σ} (h : ReadsAll env single body c l x o) : ∀ o', ReadsAll env single body c l x o' → o = o' := by
  refine ReadsAll.rec (motive_1 := fun c n x o _ => ∀ o', ReadsOne env single body c n x o' → o = o')
    (motive_2 := fun c l x o _ => ∀ o', ReadsAll env single body c l x o' → o = o')
    (motive_3 := fun c l x o _ => ∀ o', ReadsFirst env single body c l x o' → o = o')
    (motive_4 := fun c n lo hi x o _ => ∀ o', ReadsMany env single body c n lo hi x o' → o = o')
    ?_ ?_ ?_ ?_ ?_ ?_ ?_ ?_ ?_ ?_ ?_ ?_ ?_ ?_ ?_ ?_ ?_ ?_ ?_ ?_ ?_ ?_ h
  · intro c n x o he h1 o' h'
    cases h' with
    | single _ h2 => exact hs h1 h2
    | _ => cases he
  · intro c s as n c' x o hk _ ih o' h'
    cases h' with
    | single he _ => cases he
    | rule hk' h2 => rw [hk] at hk'; cases hk'; exact ih _ h2
    | noRule _ hk' => rw [hk] at hk'; cases hk'
  · intro c s as e x hk o' h'
    cases h' with
    | single he _ => cases he
    | rule hk' h2 => rw [hk] at hk'; cases hk'
    | noRule _ hk' => rw [hk] at hk'; cases hk'; rfl
  · intro c s as n ms c' x o hk hb _ ih o' h'
    cases h' with
    | single he _ => cases he
    | unwrap hk' hb' h2 => rw [hk] at hk'; cases hk'; rw [hb] at hb'; cases hb'; exact ih _ h2
    | unwrapOther _ hk' hb' => rw [hk] at hk'; cases hk'; rw [hb] at hb'; cases hb'
    | noUnwrap _ hk' => rw [hk] at hk'; cases hk'
  · intro c s as n c' x hk hb o' h'
    cases h' with
    | single he _ => cases he
    | unwrap hk' hb' h2 => rw [hk] at hk'; cases hk'; rw [hb] at hb'; cases hb'
    | unwrapOther _ hk' hb' => rfl
    | noUnwrap _ hk' => rw [hk] at hk'; cases hk'
  · intro c s as e x hk o' h'
    cases h' with
    | single he _ => cases he
    | unwrap hk' hb' h2 => rw [hk] at hk'; cases hk'
    | unwrapOther _ hk' hb' => rw [hk] at hk'; cases hk'
    | noUnwrap _ hk' => rw [hk] at hk'; cases hk'; rfl
  · intro c ns x o _ ih o' h'
    cases h' with
    | single he _ => cases he
    | choice h2 => exact ih _ h2
  · intro c ns x o _ ih o' h'
    cases h' with
    | single he _ => cases he
    | group h2 => rw [ih _ h2]
  · intro c n l x o _ ih o' h'
    cases h' with
    | single he _ => cases he
    | occur h2 => exact ih _ h2
  · intro c x o' h'
    cases h'; rfl
  · intro c n ns x y o _ _ ih1 ih2 o' h'
    cases h' with
    | cons h1' h2' => cases ih1 _ h1'; exact ih2 _ h2'
    | fails _ h1' hf => cases ih1 _ h1'; cases hf
  · intro c n x o ns _ hf ih o' h'
    cases h' with
    | cons h1' h2' => cases ih _ h1'; cases hf
    | fails _ h1' _ => exact ih _ h1'
  · intro c x o' h'
    cases h'; rfl
  · intro c n x y ns _ ih o' h'
    cases h' with
    | first _ h1' => exact ih _ h1'
    | next h1' _ => cases ih _ h1'
    | ends _ h1' he => exact ih _ h1'
  · intro c n ns x o _ _ ih1 ih2 o' h'
    cases h' with
    | first _ h1' => cases ih1 _ h1'
    | next _ h2' => exact ih2 _ h2'
    | ends _ h1' he => cases ih1 _ h1'; cases he
  · intro c n x o ns _ he ih o' h'
    cases h' with
    | first _ h1' => exact ih _ h1'
    | next h1' _ => cases ih _ h1'; cases he
    | ends _ h1' _ => exact ih _ h1'
  · intro c n lo hi x y o _ hh _ ih1 ih2 o' h'
    cases h' with
    | more h1' _ h2' => cases ih1 _ h1'; exact ih2 _ h2'
    | last _ _ _ => omega
    | lastShort _ _ _ => omega
    | enough h1' => cases ih1 _ h1'
    | few h1' _ => cases ih1 _ h1'
    | ends _ _ h1' he => cases ih1 _ h1'; cases he
  · intro c n lo hi x y _ hh hl ih o' h'
    cases h' with
    | more _ _ _ => omega
    | last h1' _ _ => exact ih _ h1'
    | lastShort _ _ _ => omega
    | enough h1' => cases ih _ h1'
    | few h1' _ => cases ih _ h1'
    | ends _ _ h1' _ => exact ih _ h1'
  · intro c n lo hi x y _ hh hl ih o' h'
    cases h' with
    | more _ _ _ => omega
    | last _ _ _ => omega
    | lastShort _ _ _ => rfl
    | enough h1' => cases ih _ h1'
    | few _ _ => rfl
    | ends _ _ h1' he => cases ih _ h1'; cases he
  · intro c n hi x _ ih o' h'
    cases h' with
    | more h1' _ _ => cases ih _ h1'
    | last h1' _ _ => cases ih _ h1'
    | lastShort h1' _ _ => cases ih _ h1'
    | enough _ => rfl
    | few _ hh => omega
    | ends _ _ h1' he => cases ih _ h1'; cases he
  · intro c n lo hi x _ hl ih o' h'
    cases h' with
    | more h1' _ _ => cases ih _ h1'
    | last h1' _ _ => cases ih _ h1'
    | lastShort _ _ _ => rfl
    | enough _ => omega
    | few _ _ => rfl
    | ends _ _ h1' he => cases ih _ h1'; cases he
  · intro c n x o lo hi _ he ih o' h'
    cases h' with
    | more h1' _ _ => cases ih _ h1'; cases he
    | last h1' _ _ => exact ih _ h1'
    | lastShort h1' _ _ => cases ih _ h1'; cases he
    | enough h1' => cases ih _ h1'; cases he
    | few h1' _ => exact ih _ h1'
    | ends _ _ h1' _ => exact ih _ h1'

end Det

theorem FirstElement.det {env : Env} {c : Ctx} {n : Node} {x : List Value} {o o' : Out (List Value)}
    (h : FirstElement env c n x o) (h' : FirstElement env c n x o') : o = o' := by
  cases h with
  | take _ h1 =>
    cases h' with
    | take _ h2 => rfl
    | refuse _ h2 => rw [h1] at h2; cases h2
  | refuse _ h1 =>
    cases h' with
    | take _ h2 => rw [h1] at h2; cases h2
    | refuse _ h2 => rw [h1] at h2; cases h2; rfl
  | none => cases h'; rfl

theorem first_unique {α : Type} {P : α → Prop} : ∀ {pre pre' post post' : List α} {a b : α},
    pre ++ a :: post = pre' ++ b :: post' → (∀ p ∈ pre, ¬ P p) → (∀ p ∈ pre', ¬ P p) → P a → P b →
      pre = pre' ∧ a = b ∧ post = post'
  | [], [], _, _, _, _, h, _, _, _, _ => by cases h; exact ⟨rfl, rfl, rfl⟩
  | [], q :: pre', _, _, _, _, h, _, h2, h3, _ => by cases h; exact absurd h3 (h2 _ (by simp))
  | p :: pre, [], _, _, _, _, h, h1, _, _, h4 => by cases h; exact absurd h4 (h1 _ (by simp))
  | p :: pre, q :: pre', _, _, _, _, h, h1, h2, h3, h4 => by
    have h := List.cons.inj h
    obtain ⟨h5, h6, h7⟩ := first_unique h.2 (fun x hx => h1 x (by simp [hx])) (fun x hx => h2 x (by simp [hx])) h3 h4
    exact ⟨by rw [h.1, h5], h6, h7⟩

theorem FirstPair.det {env : Env} {c : Ctx} {n : Node} {x x' : List (Value × Value)}
    {o o' : Out (List (Value × Value))} (hm : x = x') (h : FirstPair env c n x o) (h' : FirstPair env c n x' o') : o = o' := by
  cases h with
  | take _ _ h1 h2 h3 =>
    cases h' with
    | take _ _ h1' h2' h3' =>
      obtain ⟨rfl, _, rfl⟩ := first_unique (P := fun p : Value × Value => validate env p.1 _ c = .ok ()) hm h1 h1' h2 h2'
      rfl
    | refuse _ _ h1' h2' h3' =>
      obtain ⟨rfl, h4, rfl⟩ := first_unique (P := fun p : Value × Value => validate env p.1 _ c = .ok ()) hm h1 h1' h2 h2'
      cases h4; rw [h3] at h3'; cases h3'
    | none _ _ h1' => subst hm; exact absurd h2 (h1' _ (by simp; exact .inr (.inl rfl)))
    | misplaced _ h => cases h
  | refuse _ _ h1 h2 h3 =>
    cases h' with
    | take _ _ h1' h2' h3' =>
      obtain ⟨rfl, h4, rfl⟩ := first_unique (P := fun p : Value × Value => validate env p.1 _ c = .ok ()) hm h1 h1' h2 h2'
      cases h4; rw [h3] at h3'; cases h3'
    | refuse _ _ h1' h2' h3' =>
      obtain ⟨rfl, h4, rfl⟩ := first_unique (P := fun p : Value × Value => validate env p.1 _ c = .ok ()) hm h1 h1' h2 h2'
      cases h4; rw [h3] at h3'; cases h3'; rfl
    | none _ _ h1' => subst hm; exact absurd h2 (h1' _ (by simp; exact .inr (.inl rfl)))
    | misplaced _ h => cases h
  | none _ _ h1 =>
    cases h' with
    | take _ _ h1' h2' h3' => subst hm; exact absurd h2' (h1 _ (by simp; exact .inr (.inl rfl)))
    | refuse _ _ h1' h2' h3' => subst hm; exact absurd h2' (h1 _ (by simp; exact .inr (.inl rfl)))
    | none _ _ h1' => rfl
    | misplaced _ h => cases h
  | misplaced _ h1 h2 =>
    cases h' with
    | misplaced _ _ h3 =>
      cases h2 with
      | choiceify h2 =>
        cases h3 with
        | choiceify _ => rfl
        | choiceifyUndefined h3 _ =>
          cases h2 with
          | here h2 _ _ => rw [h2] at h3; cases h3
          | name h2 _ => rw [h2] at h3; cases h3
      | choiceifyUndefined h2 _ =>
        cases h3 with
        | choiceifyUndefined h3 _ => rw [h2] at h3; cases h3; rfl
        | choiceify h3 =>
          cases h3 with
          | here h3 _ _ => rw [h2] at h3; cases h3
          | name h3 _ => rw [h2] at h3; cases h3
      | _ => first | (cases h3; rfl) | cases h1
    | _ => cases h1

theorem readsArray_det {env : Env} {c : Ctx} {l : List Node} {x : List Value} {o o' : Out (List Value)}
    (h : ReadsArray env c l x o) (h' : ReadsArray env c l x o') : o = o' :=
  ReadsAll.det (single := FirstElement env) FirstElement.det h _ h'

theorem readsMap_det {env : Env} {c : Ctx} {l : List Node} {x : List (Value × Value)} {o o' : Out (List (Value × Value))}
    (h : ReadsMap env c l x o) (h' : ReadsMap env c l x o') : o = o' :=
  ReadsAll.det (single := FirstPair env) (FirstPair.det rfl) h _ h'

end Cddl
