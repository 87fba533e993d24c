import Verif.Proofs.Filled
import Verif.Props.C85

/-! # C86  Every entry that has to be there is there -/

namespace Cddl

/-- C86.  Every entry of an array is filled by elements of an accepted array.  This holds for every schema, also for
those where C15 does not. -/
theorem C86_array {env : Env} {c : Ctx} {ms : List Node} {xs : List Value} (h : Accepts env c (.array ms) (.array xs)) :
    ∀ n ∈ ms, Filled env xs c n := by
  obtain ⟨N, hN⟩ := (lim_ev env).val (.array xs) (.array ms) c
  have e := hN (N + 1) (by omega)
  have h' : (lim env).val (.array xs) (.array ms) c = .ok () := h
  rw [h'] at e
  simp only [fns, step, valBody, validateArray] at e
  intro n hn
  cases hr : seqLoopS (fun m w => (fns env N).arr m w c) ms (WArr.new xs) with
  | ok w =>
    obtain ⟨w0, w1, h0, h1⟩ := seq_each (I := ALeft xs fun _ => True) (fun n _ w hw => fns_arr_leaves N (fns_accepts N) goodA_any hw)
      ⟨fun _ _ => .inr trivial, fun _ hx => hx, by simp [WArr.new]⟩ hr n hn
    exact arr_filled N h0 h1
  | err e' w => rw [hr] at e; cases e
  | panic => rw [hr] at e; cases e
  | fuel => rw [hr] at e; cases e

/-- C86.  Every entry of a map is filled by pairs of an accepted map. -/
theorem C86_map {env : Env} {c : Ctx} {ms : List Node} {m : VMap} (hm : (Value.map m).WF)
    (h : Accepts env c (.map ms) (.map m)) : ∀ n ∈ ms, FilledM env m c n := by
  obtain ⟨N, hN⟩ := (lim_ev env).val (.map m) (.map ms) c
  have e := hN (N + 1) (by omega)
  have h' : (lim env).val (.map m) (.map ms) c = .ok () := h
  rw [h'] at e
  simp only [fns, step, valBody, validateMap] at e
  intro n hn
  cases hr : seqLoopS (fun m w => (fns env N).map m w c) ms (WMap.new m) with
  | ok w =>
    obtain ⟨w0, w1, h0, h1⟩ := seq_each (I := MLeft m fun _ => True)
      (fun n _ w hw => (fns_map_leaves (wf_keys_once hm) literal_itself N (fns_accepts N)).1 goodM_any hw)
      ⟨fun _ _ => .inr trivial, fun _ hx => hx, by simp [WMap.new]⟩ hr n hn
    exact (map_filled (wf_keys_once hm) N).1 h0 h1
  | err e' w => rw [hr] at e; cases e
  | panic => rw [hr] at e; cases e
  | fuel => rw [hr] at e; cases e

/-- C86.  So a pair whose key is written in the schema and that is not optional is there, with a value as the schema
says, also behind names, in groups and behind `~`. -/
theorem C86_key {env : Env} {c : Ctx} {ms : List Node} {m : VMap} (hm : (Value.map m).WF)
    (h : Accepts env c (.map ms) (.map m)) {n : Node} (hn : n ∈ ms) {d : Ctx} {l : Literal} {t : Node}
    (hp : Demands env c n d (.literal l) t) : ∃ x, (l.toValue, x) ∈ m ∧ Accepts env d t x := by
  have key : ∀ {c n d k t}, Demands env c n d k t → FilledM env m c n → ∃ p ∈ m, Accepts env d k p.1 ∧ Accepts env d t p.2 := by
    clear hp
    intro c n d k t hd
    induction hd with
    | pair c k t y =>
      intro hf
      cases hf with
      | pair hp h1 h2 => exact ⟨_, hp, h1, h2⟩
    | rule hl _ ih =>
      intro hf
      cases hf with
      | rule hl' hf => rw [hl] at hl'; cases hl'; exact ih hf
    | unwrap hl hn _ ih =>
      intro hf
      cases hf with
      | unwrap hl' hf => rw [hl] at hl'; cases hl'; exact ih (hf _ hn)
    | group hn _ ih =>
      intro hf
      cases hf with
      | group hf => exact ih (hf _ hn)
    | occur h0 _ ih =>
      intro hf
      cases hf with
      | none h => exact absurd h h0
      | some hf => exact ih hf
  obtain ⟨⟨a, x⟩, hx, h1, h2⟩ := key hp (C86_map hm h n hn)
  refine ⟨x, ?_, h2⟩
  have h1 : (lim env).val a (.literal l) d = .ok () := h1
  rw [val_eq] at h1
  simp only [valBody, validateLiteral] at h1
  split at h1
  · rename_i he
    have e : a = l.toValue := (Value.cmp_eq _ _).mp (by simpa [Value.beq] using he)
    exact e ▸ hx
  · cases h1

/-- C86.  For whole calls with JSON texts: what the rule demands of its pairs is in the data. -/
theorem C86_json {l : Libs} {name cddl json : String} {t : RuleTable} {rd : RuleDef} {ms : List Node} {j : Json}
    {m : VMap} (ht : flattenFromStr l cddl = .ok t) (hr : LastRule t name rd) (hn : rd.node = .map ms)
    (hj : l.jsonDecode json = .ok j) (hc : j.toValue = .ok (.map m)) (h : validateJsonStr l name cddl json = .ok ()) :
    ∀ n ∈ ms, ∀ d q ty, Demands (l.env t) top n d (.literal q) ty → ∃ x, (q.toValue, x) ∈ m ∧ Accepts (l.env t) d ty x := by
  intro n hm d q ty hd
  refine C86_key (j.toValue_WF _ hc) ?_ hm hd
  unfold validateJsonStr findRule at h
  rw [ht] at h
  simp only [Res.bind] at h
  rw [find_last.mpr hr, hj] at h
  simp only [hc, Res.ofExcept] at h
  unfold doValidate at h
  split at h
  · cases h
  · rw [hn] at h
    exact h

/-- C86, an instance where C15 does not hold: `[(int,), tstr // int]` accepts `[1, 2]`, and its only entry is filled. -/
theorem C86_example : Filled (demoEnv []) [.integer 1, .integer 2] top
    (.choice [.group [.group [.prelude .int], .prelude .tstr], .group [.prelude .int]]) :=
  C86_array (ms := [.choice [.group [.group [.prelude .int], .prelude .tstr], .group [.prelude .int]]])
    (accepts_of_fuel 60 (by decide)) _ List.mem_cons_self

/-- C86, an instance: a map that `{ (1: tstr, ? 2: int) }` accepts has a text under `1`. -/
theorem C86_key_example {m : VMap} (hm : (Value.map m).WF)
    (h : Accepts (demoEnv []) top (.map [.group [.keyValue (.literal (.int 1)) (.prelude .tstr) true,
      .occur .optional (.keyValue (.literal (.int 2)) (.prelude .int) true)]]) (.map m)) :
    ∃ x, (Value.integer 1, x) ∈ m ∧ Accepts (demoEnv []) top (.prelude .tstr) x :=
  C86_key (l := .int 1) hm h List.mem_cons_self (.group List.mem_cons_self (.pair _ _ _ _))

/-- The instance is not empty: `{1: "a"}` is such a map. -/
example : Accepts (demoEnv []) top (.map [.group [.keyValue (.literal (.int 1)) (.prelude .tstr) true,
    .occur .optional (.keyValue (.literal (.int 2)) (.prelude .int) true)]]) (.map [(.integer 1, .text "a")]) :=
  accepts_of_fuel 60 (by decide)

end Cddl
