import Verif.Proofs.SoundLeaf
import Verif.Proofs.Stands
import Verif.Proofs.Same
import Verif.Proofs.VMap
import Verif.Props.C02
import Verif.Props.C44
import Verif.Spec.Stages

/-! # C85  No part of accepted data goes unmatched -/

namespace Cddl

/-- C85.  Every element of an accepted array is accepted by a type that stands for an element in the array's entries.
This holds for every schema, also for those where C15 does not. -/
theorem C85_array {env : Env} {c : Ctx} {ms : List Node} {xs : List Value} (h : Accepts env c (.array ms) (.array xs)) :
    ∀ x ∈ xs, ∃ n ∈ ms, ∃ d t, ElementOf env c n d t ∧ Accepts env d t x := by
  obtain ⟨N, hN⟩ := (lim_ev env).val (.array xs) (.array ms) c
  have e := hN (N + 1) (by omega)
  have h' : (lim env).val (.array xs) (.array ms) c = .ok () := h
  rw [h'] at e
  simp only [fns, step, valBody, validateArray] at e
  have hl : Leaves (ALeft xs fun x => ∃ n ∈ ms, ∃ d t, ElementOf env c n d t ∧ Accepts env d t x)
      (seqLoopS (fun m w => (fns env N).arr m w c) ms (WArr.new xs)) :=
    leaves_seq (fun n hn w hw => fns_arr_leaves N (fns_accepts N) (fun d t x ht hx => ⟨n, hn, d, t, ht, hx⟩) hw)
      ⟨fun x hx => .inl hx, fun x hx => hx, by simp [WArr.new]⟩
  intro x hx
  cases hr : seqLoopS (fun m w => (fns env N).arr m w c) ms (WArr.new xs) with
  | ok w =>
    rw [hr] at hl e
    simp only at e
    split at e
    · rename_i hw
      rcases hl.left x hx with h | h
      · rw [List.isEmpty_iff.mp hw] at h
        cases h
      · exact h
    · cases e
  | err e' w => rw [hr] at e; cases e
  | panic => rw [hr] at e; cases e
  | fuel => rw [hr] at e; cases e

theorem wf_keys_once {m : VMap} (h : (Value.map m).WF) : ∀ p ∈ m, ∀ q ∈ m, p.1 = q.1 → p = q := by
  intro p hp q hq e
  obtain ⟨a, b⟩ := p
  obtain ⟨a', b'⟩ := q
  simp only at e
  subst e
  rw [VMap.PW.key_unique ((VMap.sorted_iff m).mp h.1) hp hq]

/-- C85.  For every pair of an accepted map there is a key with a type in the map's entries, which accept the key and the
value. -/
theorem C85_map {env : Env} {c : Ctx} {ms : List Node} {m : VMap} (hm : (Value.map m).WF)
    (h : Accepts env c (.map ms) (.map m)) :
    ∀ p ∈ m, ∃ n ∈ ms, ∃ d k t, PairOf env c n d k t ∧ Accepts env d k p.1 ∧ Accepts env d t p.2 := by
  obtain ⟨N, hN⟩ := (lim_ev env).val (.map m) (.map ms) c
  have e := hN (N + 1) (by omega)
  have h' : (lim env).val (.map m) (.map ms) c = .ok () := h
  rw [h'] at e
  simp only [fns, step, valBody, validateMap] at e
  have hl : Leaves (MLeft m fun p => ∃ n ∈ ms, ∃ d k t, PairOf env c n d k t ∧ Accepts env d k p.1 ∧ Accepts env d t p.2)
      (seqLoopS (fun m w => (fns env N).map m w c) ms (WMap.new m)) :=
    leaves_seq (fun n hn w hw => (fns_map_leaves (wf_keys_once hm) literal_itself N (fns_accepts N)).1
        (fun d k t p ht hk hx => ⟨n, hn, d, k, t, ht, hk, hx⟩) hw)
      ⟨fun x hx => .inl hx, fun x hx => hx, by simp [WMap.new]⟩
  intro x hx
  cases hr : seqLoopS (fun m w => (fns env N).map m w c) ms (WMap.new m) with
  | ok w =>
    rw [hr] at hl e
    simp only at e
    split at e
    · rename_i hw
      rcases hl.left x hx with h | h
      · rw [List.isEmpty_iff.mp hw] at h
        cases h
      · exact h
    · cases e
  | err e' w => rw [hr] at e; cases e
  | panic => rw [hr] at e; cases e
  | fuel => rw [hr] at e; cases e

theorem choiceLoop_some {f : Node → Res Unit} {msg : String} : ∀ {l : List Node}, choiceLoop f msg l = .ok () →
    ∃ n ∈ l, f n = .ok ()
  | [], h => by cases h
  | n :: l, h => by
    unfold choiceLoop at h
    cases hf : f n with
    | ok u => exact ⟨n, List.mem_cons_self, hf⟩
    | err e =>
      rw [hf] at h
      simp only at h
      split at h
      · cases h
      · obtain ⟨m, hm, h⟩ := choiceLoop_some h
        exact ⟨m, List.mem_cons_of_mem _ hm, h⟩
    | panic => rw [hf] at h; cases h
    | fuel => rw [hf] at h; cases h

theorem entryOf_of {n : Node} (h : ∀ k t x, n ≠ .keyValue k t x) : n.entryOf = n := by
  cases n with
  | keyValue k t x => exact absurd rfl (h k t x)
  | _ => rfl

/-- What accepts a value refers, in the end, to a type that accepts it and refers no further. -/
theorem final_under {env : Env} {v : Value} : ∀ k : Nat,
    (∀ {n c}, (fns env k).val v n c = .ok () → ∃ d t, Under env c n d t ∧ t.isFinal = true ∧ Accepts env d t v) ∧
    (∀ {s as c}, (fns env k).chf s as v c = .ok () →
      ∃ d t, Under env c (.choiceify s as) d t ∧ t.isFinal = true ∧ Accepts env d t v)
  | 0 => by
    constructor
    · intro n c h
      cases h
    · intro s as c h
      cases h
  | k + 1 => by
    obtain ⟨ih, ihc⟩ := final_under (env := env) (v := v) k
    constructor
    · intro n c h
      have self : n.isFinal = true → ∃ d t, Under env c n d t ∧ t.isFinal = true ∧ Accepts env d t v :=
        fun hn => ⟨c, n, .self c n, hn, accepts_of_fuel _ h⟩
      simp only [fns, step] at h
      cases n with
      | rule s as =>
        simp only [valBody, validateRule] at h
        cases hl : c.lookupRule env s as with
        | error e => rw [hl] at h; cases h
        | ok a =>
          obtain ⟨n, c'⟩ := a
          rw [hl] at h
          obtain ⟨d, t, h1, h2⟩ := ih h
          exact ⟨d, t, .rule hl h1, h2⟩
      | choice l =>
        obtain ⟨n, hn, h⟩ := choiceLoop_some h
        obtain ⟨d, t, h1, h2⟩ := ih h
        exact ⟨d, t, .choice hn h1, h2⟩
      | group l =>
        simp only [valBody, validateStandaloneGroup] at h
        split at h
        · obtain ⟨d, t, h1, h2⟩ := ih h
          exact ⟨d, t, .group h1, h2⟩
        · cases h
      | choiceify s as => exact ihc h
      | choiceifyInline l =>
        obtain ⟨n, hn, h⟩ := choiceLoop_some h
        unfold choiceifyItem at h
        split at h
        · obtain ⟨d, t, h1, h2⟩ := ih h
          exact ⟨d, t, .inline hn (by simp) (by simpa [Node.entryOf] using h1), h2⟩
        · obtain ⟨d, t, h1, h2⟩ := ihc h
          exact ⟨d, t, .inlineMember hn h1, h2⟩
        · rename_i hk hr
          obtain ⟨d, t, h1, h2⟩ := ih h
          exact ⟨d, t, .inline hn (fun s as e => hr s as e) (by rw [entryOf_of hk]; exact h1), h2⟩
      | _ => exact self rfl
    · intro s as c h
      simp only [fns, step, chfBody] at h
      cases hl : c.lookupRule env s as with
      | error e => rw [hl] at h; cases h
      | ok a =>
        obtain ⟨n, c'⟩ := a
        rw [hl] at h
        simp only [Res.ofExcept, Res.bind] at h
        split at h
        · obtain ⟨n, hn, h⟩ := choiceLoop_some h
          unfold choiceifyItem at h
          split at h
          · obtain ⟨d, t, h1, h2⟩ := ih h
            exact ⟨d, t, .choiceify hl hn (by simp) (by simpa [Node.entryOf] using h1), h2⟩
          · obtain ⟨d, t, h1, h2⟩ := ihc h
            exact ⟨d, t, .choiceifyMember hl hn h1, h2⟩
          · rename_i hk hr
            obtain ⟨d, t, h1, h2⟩ := ih h
            exact ⟨d, t, .choiceify hl hn (fun s as e => hr s as e) (by rw [entryOf_of hk]; exact h1), h2⟩
        · obtain ⟨d, t, h1, h2⟩ := ihc h
          exact ⟨d, t, .choiceifyName hl h1, h2⟩
        · cases h

theorem Under.trans {env : Env} {c d e : Ctx} {n t u : Node} (h : Under env c n d t) (h' : Under env d t e u) :
    Under env c n e u := by
  induction h with
  | self => exact h'
  | rule a _ ih => exact .rule a (ih h')
  | choice a _ ih => exact .choice a (ih h')
  | group _ ih => exact .group (ih h')
  | element a b _ ih => exact .element a b (ih h')
  | key a b _ ih => exact .key a b (ih h')
  | value a b _ ih => exact .value a b (ih h')
  | cbor _ ih => exact .cbor (ih h')
  | inline a b _ ih => exact .inline a b (ih h')
  | inlineMember a _ ih => exact .inlineMember a (ih h')
  | choiceify a b x _ ih => exact .choiceify a b x (ih h')
  | choiceifyMember a b _ ih => exact .choiceifyMember a b (ih h')
  | choiceifyName a _ ih => exact .choiceifyName a (ih h')

/-- Types that are final accept arrays and maps only if they are arrays and maps, or `any`. -/
theorem final_nested {env : Env} {d : Ctx} {t : Node} {v : Value} (hf : t.isFinal = true) (h : Accepts env d t v)
    (hv : (∃ xs, v = .array xs) ∨ ∃ m, v = .map m) :
    t = .prelude .any ∨ (∃ ms, t = .array ms) ∨ ∃ ms, t = .map ms := by
  have h : (lim env).val v t d = .ok () := h
  rw [val_eq] at h
  cases t with
  | literal l =>
    simp only [valBody, validateLiteral] at h
    split at h
    · rename_i he
      have e := (Value.cmp_eq _ _).mp (by simpa [Value.beq] using he)
      rcases hv with ⟨xs, rfl⟩ | ⟨m, rfl⟩ <;> cases l <;> cases e
    · cases h
  | prelude p =>
    rcases hv with ⟨xs, rfl⟩ | ⟨m, rfl⟩ <;> cases p <;> simp_all [valBody, validatePreludeType]
  | array ms => exact .inr (.inl ⟨ms, rfl⟩)
  | map ms => exact .inr (.inr ⟨ms, rfl⟩)
  | range a b i =>
    simp only [valBody, validateRange] at h
    obtain ⟨x, -, h⟩ := bind_ok h
    obtain ⟨y, -, h⟩ := bind_ok h
    rcases hv with ⟨xs, rfl⟩ | ⟨m, rfl⟩ <;> cases x <;> cases y <;> simp [rangeMatch, sameKind] at h
  | ctl op a b =>
    simp only [valBody] at h
    cases op <;> simp only [validateControl, validateControlLt, validateControlLe, validateControlGt, validateControlGe,
      validateControlSize] at h
    case size =>
      obtain ⟨arg, -, h⟩ := bind_ok h
      obtain ⟨sz, -, h⟩ := bind_ok h
      obtain ⟨tn, -, h⟩ := bind_ok h
      split at h
      · obtain ⟨se, -, h⟩ := bind_ok h
        rcases hv with ⟨xs, rfl⟩ | ⟨m, rfl⟩ <;> simp only at h <;> split at h <;> cases h
      · obtain ⟨se, -, h⟩ := bind_ok h
        rcases hv with ⟨xs, rfl⟩ | ⟨m, rfl⟩ <;> simp only at h <;> split at h <;> cases h
      · obtain ⟨se, -, h⟩ := bind_ok h
        rcases hv with ⟨xs, rfl⟩ | ⟨m, rfl⟩ <;> simp only at h <;> split at h <;> cases h
      · cases h
    all_goals
      obtain ⟨arg, -, h⟩ := bind_ok h
      obtain ⟨k, -, h⟩ := bind_ok h
      obtain ⟨tn, -, h⟩ := bind_ok h
      rcases hv with ⟨xs, rfl⟩ | ⟨m, rfl⟩ <;> split at h <;> cases h
  | ctlRegexp p => rcases hv with ⟨xs, rfl⟩ | ⟨m, rfl⟩ <;> simp [valBody, validateControlRegexp] at h
  | ctlCbor n => rcases hv with ⟨xs, rfl⟩ | ⟨m, rfl⟩ <;> simp [valBody, validateControlCbor] at h
  | keyValue k t x => simp [valBody] at h
  | occur o n => simp [valBody] at h
  | unwrap s as => simp [valBody] at h
  | _ => cases hf

theorem wf_elem {xs : List Value} (h : (Value.array xs).WF) {x : Value} (hx : x ∈ xs) : x.WF := (Value.WFArr_iff xs).mp h x hx

theorem wf_pair {p : Value × Value} : ∀ {m : List (Value × Value)}, Value.WFMap m → p ∈ m → p.1.WF ∧ p.2.WF
  | [], _, h => by cases h
  | (k, v) :: m, hm, h => by
    simp only [Value.WFMap] at hm
    rcases List.mem_cons.mp h with rfl | h
    · exact ⟨hm.1, hm.2.1⟩
    · exact wf_pair hm.2.2 h

/-- C85.  At any depth: every part of accepted data is accepted by a type that stands in the schema under the one that
accepted the whole, or belongs to a part for which the schema says
`any`. -/
theorem C85_parts {env : Env} {c : Ctx} {n : Node} {v w : Value} (hv : v.WF) (h : Accepts env c n v) (hp : PartOf v w) :
    (∃ d t, Under env c n d t ∧ Accepts env d t w) ∨
      ∃ d u, Under env c n d (.prelude .any) ∧ PartOf v u ∧ PartOf u w := by
  have key : ∀ {v w : Value}, PartOf v w → v.WF → ∀ {c n}, Accepts env c n v →
      (∃ d t, Under env c n d t ∧ Accepts env d t w) ∨
        ∃ d u, Under env c n d (.prelude .any) ∧ PartOf v u ∧ PartOf u w := by
    intro v w hp
    have nested : ∀ {v w : Value} {c : Ctx} {n : Node}, PartOf v w → Accepts env c n v → ((∃ xs, v = .array xs) ∨ ∃ m, v = .map m) →
        (∃ d u, Under env c n d (.prelude .any) ∧ PartOf v u ∧ PartOf u w) ∨
        ∃ d t, Under env c n d t ∧ Accepts env d t v ∧ ((∃ ms, t = .array ms) ∨ ∃ ms, t = .map ms) := by
      intro v w c n hp hk hs
      obtain ⟨N, hN⟩ := (lim_ev env).val v n c
      have e := hN N (Nat.le_refl N)
      have hk' : (lim env).val v n c = .ok () := hk
      rw [hk'] at e
      obtain ⟨d, t, h1, h2, h3⟩ := (final_under N).1 e
      rcases final_nested h2 h3 hs with rfl | h4
      · exact .inl ⟨d, v, h1, .self v, hp⟩
      · exact .inr ⟨d, t, h1, h3, h4⟩
    induction hp with
    | self v => exact fun _ c n hk => .inl ⟨c, n, .self c n, hk⟩
    | @elem xs x w hx hp ih =>
      intro hv c n hk
      rcases nested (.elem hx hp) hk (.inl ⟨xs, rfl⟩) with h | ⟨d, t, h1, h2, ⟨ms, rfl⟩ | ⟨ms, rfl⟩⟩
      · exact .inr h
      · obtain ⟨m, hm, d', t', h3, h4⟩ := C85_array h2 x hx
        rcases ih (wf_elem hv hx) h4 with ⟨e, u, h5, h6⟩ | ⟨e, u, h5, h6, h7⟩
        · exact .inl ⟨e, u, h1.trans (.element hm h3 h5), h6⟩
        · exact .inr ⟨e, u, h1.trans (.element hm h3 h5), .elem hx h6, h7⟩
      · have h2 : (lim env).val (.array xs) (.map ms) d = .ok () := h2
        rw [val_eq] at h2
        cases h2
    | @key m p w hx hp ih =>
      intro hv c n hk
      rcases nested (.key hx hp) hk (.inr ⟨m, rfl⟩) with h | ⟨d, t, h1, h2, ⟨ms, rfl⟩ | ⟨ms, rfl⟩⟩
      · exact .inr h
      · have h2 : (lim env).val (.map m) (.array ms) d = .ok () := h2
        rw [val_eq] at h2
        cases h2
      · obtain ⟨q, hq, d', k, t', h3, h4, h4'⟩ := C85_map hv h2 p hx
        rcases ih (wf_pair hv.2 hx).1 h4 with ⟨e, u, h5, h6⟩ | ⟨e, u, h5, h6, h7⟩
        · exact .inl ⟨e, u, h1.trans (.key hq h3 h5), h6⟩
        · exact .inr ⟨e, u, h1.trans (.key hq h3 h5), .key hx h6, h7⟩
    | @value m p w hx hp ih =>
      intro hv c n hk
      rcases nested (.value hx hp) hk (.inr ⟨m, rfl⟩) with h | ⟨d, t, h1, h2, ⟨ms, rfl⟩ | ⟨ms, rfl⟩⟩
      · exact .inr h
      · have h2 : (lim env).val (.map m) (.array ms) d = .ok () := h2
        rw [val_eq] at h2
        cases h2
      · obtain ⟨q, hq, d', k, t', h3, h4', h4⟩ := C85_map hv h2 p hx
        rcases ih (wf_pair hv.2 hx).2 h4 with ⟨e, u, h5, h6⟩ | ⟨e, u, h5, h6, h7⟩
        · exact .inl ⟨e, u, h1.trans (.value hq h3 h5), h6⟩
        · exact .inr ⟨e, u, h1.trans (.value hq h3 h5), .value hx h6, h7⟩
  exact key hp hv h

/-- C85.  So data is refused if some part of it is accepted by no type in the schema, unless the schema has `any`. -/
theorem C85_absent {env : Env} {c : Ctx} {n : Node} {v w : Value} (hv : v.WF) (hp : PartOf v w)
    (ha : ∀ d, ¬ Under env c n d (.prelude .any)) (hw : ∀ d t, Under env c n d t → ¬ Accepts env d t w) :
    ¬ Accepts env c n v := by
  intro h
  rcases C85_parts hv h hp with ⟨d, t, h1, h2⟩ | ⟨d, u, h1, _⟩
  · exact hw d t h1 h2
  · exact ha d h1

/-- C85.  For whole calls with JSON texts. -/
theorem C85_json {l : Libs} {name cddl json : String} {j : Json} {v w : Value} (hj : l.jsonDecode json = .ok j)
    (hc : j.toValue = .ok v) (h : validateJsonStr l name cddl json = .ok ()) (hp : PartOf v w) :
    ∃ t rd, flattenFromStr l cddl = .ok t ∧ LastRule t name rd ∧
      ((∃ d ty, Under (l.env t) top rd.node d ty ∧ Accepts (l.env t) d ty w) ∨
        ∃ d u, Under (l.env t) top rd.node d (.prelude .any) ∧ PartOf v u ∧ PartOf u w) := by
  unfold validateJsonStr findRule at h
  cases hf : flattenFromStr l cddl with
  | ok t =>
    rw [hf] at h
    simp only [Res.bind] at h
    cases hr : t.find name with
    | none => rw [hr] at h; cases h
    | some rd =>
      rw [hr, hj] at h
      simp only [hc, Res.ofExcept] at h
      refine ⟨t, rd, rfl, find_last.mp hr, C85_parts (j.toValue_WF v hc) ?_ hp⟩
      unfold doValidate at h
      split at h
      · cases h
      · exact h
  | err e => rw [hf] at h; cases h
  | panic => rw [hf] at h; cases h
  | fuel => rw [hf] at h; cases h

/-- C85, an instance where C15 does not hold: `[(int,), tstr // int]` accepts `[1, 2]`.  Both elements were matched all
the same. -/
theorem C85_example : ∀ x ∈ [Value.integer 1, .integer 2],
    ∃ n ∈ [Node.choice [.group [.group [.prelude .int], .prelude .tstr], .group [.prelude .int]]],
      ∃ d t, ElementOf (demoEnv []) top n d t ∧ Accepts (demoEnv []) d t x :=
  C85_array (accepts_of_fuel 60 (by decide))

/-- C85, an instance: no data with a text in it, at whatever depth, is accepted by `[* int]`. -/
theorem C85_absent_example {v : Value} {s : String} (hv : v.WF) (hp : PartOf v (.text s)) :
    ¬ Accepts (demoEnv []) top (.array [.occur .zeroOrMore (.prelude .int)]) v := by
  have under : ∀ {d t}, Under (demoEnv []) top (.array [.occur .zeroOrMore (.prelude .int)]) d t →
      t = .array [.occur .zeroOrMore (.prelude .int)] ∨ t = .prelude .int := by
    intro d t h
    cases h with
    | self => exact .inl rfl
    | element hn he hu =>
      simp only [List.mem_singleton] at hn
      subst hn
      cases he with
      | alone _ h _ => cases h
      | occur he =>
        cases he with
        | alone => cases hu; exact .inr rfl
  refine C85_absent hv hp (fun d h => ?_) (fun d t h ha => ?_)
  · rcases under h with h | h <;> cases h
  · have ha : (lim (demoEnv [])).val (.text s) t d = .ok () := ha
    rw [val_eq] at ha
    rcases under h with rfl | rfl <;> cases ha

end Cddl
