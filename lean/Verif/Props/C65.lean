import Verif.Proofs.Reads
import Verif.Props.C15Text

/-!
# C65: arrays and maps are read from left to right

`ReadsArray` and `ReadsMap` (Spec/Reads.lean) describe arrays and maps like a parsing expression grammar: the entries one after
the other, of a choice the first option that takes something, a repetition as often as it goes.  They only ever hand the data on,
so that what an option has read before it failed is there for the next.  The validator takes things out of a working copy
instead, and puts them back in groups.  For schemas in which whatever is tried can be undone (C15) the two are the same.
-/

namespace Cddl

section
variable {env : Env} {J : Judgement}

/-- C65.  The elements of an array can be read in one way only, which is also how the validator decides: the array is accepted if
all is read, refused if something is left or does not fit, and any other error of the validator is the one met in reading.  The
condition `J.Agrees env`, `typeOk J` is that of C15; without it this is false (`C65_refuted`). -/
theorem C65_array (hJ : J.Agrees env) (hl : ∀ s e, env.lookup s = .error e → e.isFatal = true) {ms : List Node}
    (hn : (Node.array ms).typeOk J = true) {xs : List Value} (hv : (Value.array xs).WF) :
    ∃ o, ReadsArray env top ms xs o ∧ (∀ o', ReadsArray env top ms xs o' → o' = o) ∧
      o.Says (validate env (.array xs) (.array ms) top) := by
  have det : ∀ {o o'}, ReadsArray env top ms xs o → ReadsArray env top ms xs o' → o' = o :=
    fun h h' => readsArray_det h' h
  have hw : (WArr.new xs).Inv 0 := ⟨(Value.WFArr_iff xs).mp hv, by simp [WArr.new], rfl⟩
  have G := lim_good (env := env) (plainErr_ok hl)
  have h1 := seqLoopS_reads (view := WArr.array) (I := WArr.Inv 0) (E := PlainErr) (c := top) (l := ms)
    (f := fun m w => (lim env).arr m w top) (fun n _ w hw => G.arr n w top _ hw)
    (fun n hm w hw => lim_reads_arr hl hJ n w top 0 trivial hw (kinds_all hn n hm)) (WArr.new xs) hw
  have h2 := seqLoopS_safe (E := PlainErr) (I := WArr.Inv 0) (f := fun m w => (lim env).arr m w top) ms (WArr.new xs) hw
    (fun n _ w hw => G.arr n w top _ hw)
  have h3 : validate env (.array xs) (.array ms) top ≠ .fuel := lim_val_returns env _ _ (c := top) rfl
  unfold validate at h3 ⊢
  rw [val_eq] at h3 ⊢
  simp only [valBody, validateArray] at h3 ⊢
  revert h1 h2 h3
  cases seqLoopS (fun m w => (lim env).arr m w top) ms (WArr.new xs) with
  | ok w' =>
    intro h1 h2 h3
    refine ⟨_, h1, fun o' h => det h1 h, ?_⟩
    dsimp only
    cases w'.array with
    | nil => rfl
    | cons => exact ⟨_, rfl⟩
  | err e w' =>
    intro h1 h2 h3
    refine ⟨_, h1, fun o' h => det h1 h, ?_⟩
    have := h2.1
    cases e <;> first | exact ⟨_, rfl⟩ | rfl | cases this rfl
  | panic => exact fun _ h2 => h2.elim
  | fuel => exact fun _ _ h3 => absurd rfl h3

/-- C65.  The same for maps; what is left after a key with a cut is refused like anything else. -/
theorem C65_map (hJ : J.Agrees env) (hl : ∀ s e, env.lookup s = .error e → e.isFatal = true) {ms : List Node}
    (hn : (Node.map ms).typeOk J = true) {m : List (Value × Value)} (hv : (Value.map m).WF) :
    ∃ o, ReadsMap env top ms m o ∧ (∀ o', ReadsMap env top ms m o' → o' = o) ∧
      o.Says (validate env (.map m) (.map ms) top) := by
  have det : ∀ {o o'}, ReadsMap env top ms m o → ReadsMap env top ms m o' → o' = o :=
    fun h h' => readsMap_det h' h
  have hv' : VMap.Sorted m ∧ Value.WFMap m := hv
  have hw : (WMap.new m).Inv 0 := ⟨(VMap.sorted_iff m).mp hv'.1, (Value.WFMap_iff m).mp hv'.2, by simp [WMap.new], rfl⟩
  have G := lim_good (env := env) (plainErr_ok hl)
  have h1 := seqLoopS_reads (view := WMap.map) (I := WMap.Inv 0) (E := fun _ => True) (c := top) (l := ms)
    (f := fun m w => (lim env).map m w top) (fun n _ w hw => G.map n w top _ hw)
    (fun n hm w hw => lim_reads_map hl hJ n w top 0 trivial hw (kinds_all hn n hm)) (WMap.new m) hw
  have h2 := seqLoopS_safe (E := fun _ => True) (I := WMap.Inv 0) (f := fun m w => (lim env).map m w top) ms (WMap.new m) hw
    (fun n _ w hw => G.map n w top _ hw)
  have h3 : validate env (.map m) (.map ms) top ≠ .fuel := lim_val_returns env _ _ (c := top) rfl
  unfold validate at h3 ⊢
  rw [val_eq] at h3 ⊢
  simp only [valBody, validateMap] at h3 ⊢
  revert h1 h2 h3
  cases seqLoopS (fun m w => (lim env).map m w top) ms (WMap.new m) with
  | ok w' =>
    intro h1 h2 h3
    refine ⟨_, h1, fun o' h => det h1 h, ?_⟩
    dsimp only
    cases w'.map with
    | nil => rfl
    | cons => exact ⟨_, rfl⟩
  | err e w' =>
    intro h1 h2 h3
    refine ⟨_, h1, fun o' h => det h1 h, ?_⟩
    cases e <;> first | exact ⟨_, rfl⟩ | rfl
  | panic => exact fun _ h2 => h2.elim
  | fuel => exact fun _ _ h3 => absurd rfl h3

/-- C65.  So an array is accepted exactly if its entries read it to the end. -/
theorem C65_array_accepts (hJ : J.Agrees env) (hl : ∀ s e, env.lookup s = .error e → e.isFatal = true) {ms : List Node}
    (hn : (Node.array ms).typeOk J = true) {xs : List Value} (hv : (Value.array xs).WF) :
    Accepts env top (.array ms) (.array xs) ↔ ReadsArray env top ms xs (.took []) := by
  obtain ⟨o, h1, h2, h3⟩ := C65_array hJ hl hn hv
  refine ⟨fun h => ?_, fun h => ?_⟩
  · unfold Accepts at h
    rw [h] at h3
    cases o with
    | took rest =>
      cases rest with
      | nil => exact h1
      | cons => obtain ⟨_, h3⟩ := h3; cases h3
    | stop e => cases h3
    | _ => obtain ⟨_, h3⟩ := h3; cases h3
  · rw [← h2 _ h] at h3
    exact h3

/-- C65.  A map is accepted exactly if its entries read it to the end. -/
theorem C65_map_accepts (hJ : J.Agrees env) (hl : ∀ s e, env.lookup s = .error e → e.isFatal = true) {ms : List Node}
    (hn : (Node.map ms).typeOk J = true) {m : List (Value × Value)} (hv : (Value.map m).WF) :
    Accepts env top (.map ms) (.map m) ↔ ReadsMap env top ms m (.took []) := by
  obtain ⟨o, h1, h2, h3⟩ := C65_map hJ hl hn hv
  refine ⟨fun h => ?_, fun h => ?_⟩
  · unfold Accepts at h
    rw [h] at h3
    cases o with
    | took rest =>
      cases rest with
      | nil => exact h1
      | cons => obtain ⟨_, h3⟩ := h3; cases h3
    | stop e => cases h3
    | _ => obtain ⟨_, h3⟩ := h3; cases h3
  · rw [← h2 _ h] at h3
    exact h3

end

/-- C65 for the rules of a table that passes the test of C15. -/
theorem C65_rule (l : Libs) {t : RuleTable} {name : String} {ms : List Node} {xs : List Value} (hu : t.undoable name = true)
    (hr : LastRule t name ⟨[], .array ms⟩) (hv : (Value.array xs).WF) :
    doValidate (l.env t) (.array xs) ⟨[], .array ms⟩ = .ok () ↔ ReadsArray (l.env t) top ms xs (.took []) := by
  refine Iff.trans Iff.rfl (C65_array_accepts (RuleTable.undoable_agrees hu rfl) (env_fatal l t) ?_ hv)
  simp only [RuleTable.undoable, Bool.and_eq_true] at hu
  have := hu.2
  rw [find_last.mpr hr] at this
  exact this

/-- C65 is false without the condition: `[(int,), tstr // int]` accepts `[1, 2]`, but read from left to right the second option
takes 1, and 2 is left. -/
theorem C65_refuted :
    Accepts (demoEnv []) top (.array [.choice [.group [.group [.prelude .int], .prelude .tstr], .group [.prelude .int]]])
      (.array [.integer 1, .integer 2]) ∧
    ∀ o, ReadsArray (demoEnv []) top [.choice [.group [.group [.prelude .int], .prelude .tstr], .group [.prelude .int]]]
      [.integer 1, .integer 2] o → o = .took [.integer 2] := by
  refine ⟨accepts_of_fuel 60 (by decide), fun o h => readsArray_det h (.cons (.choice ?_) (.nil _ _))⟩
  have int1 : ReadsOne (demoEnv []) (FirstElement (demoEnv [])) Node.arrayEntries top (.prelude .int) [.integer 1, .integer 2]
      (.took [.integer 2]) := .single rfl (.take _ (validate_of_fuel 60 (by decide)))
  have text : ReadsOne (demoEnv []) (FirstElement (demoEnv [])) Node.arrayEntries top (.prelude .tstr) [.integer 2] .no :=
    .single rfl (.refuse (e := .mismatch "tstr") _ (validate_of_fuel 60 (by decide)))
  refine .next (.group (o := .no) (.cons (.group (o := .took [.integer 2]) (.cons int1 (.nil _ _))) (.fails _ text rfl))) ?_
  exact .first _ (.group (o := .took [.integer 2]) (.cons int1 (.nil _ _)))

/-! ## Examples -/

/-- No names are used, so none are assumed. -/
def c65J : Judgement := ⟨fun _ => false, fun _ => false, fun _ _ => .none, fun _ _ => .none⟩

theorem c65_agrees : c65J.Agrees (demoEnv []) := fun s d h => by cases h

/-- `[(int, int // int, tstr), * bool]`: the second option reads 1 again. -/
example : ReadsArray (demoEnv []) top [.choice [.group [.prelude .int, .prelude .int], .group [.prelude .int, .prelude .tstr]],
      .occur .zeroOrMore (.prelude .bool)] [.integer 1, .text "a", .bool true] (.took []) ∧
    Accepts (demoEnv []) top (.array [.choice [.group [.prelude .int, .prelude .int], .group [.prelude .int, .prelude .tstr]],
      .occur .zeroOrMore (.prelude .bool)]) (.array [.integer 1, .text "a", .bool true]) := by
  have h := accepts_of_fuel (env := demoEnv []) (c := top) (n := .array [.choice [.group [.prelude .int, .prelude .int],
    .group [.prelude .int, .prelude .tstr]], .occur .zeroOrMore (.prelude .bool)])
    (v := .array [.integer 1, .text "a", .bool true]) 60 (by decide)
  exact ⟨(C65_array_accepts c65_agrees (demo_fatal []) (by decide)
    ((Value.WFArr_iff _).mpr (by simp [Value.WF]))).mp h, h⟩

/-- `[* int, int]` refuses `[1]`: the repetition leaves nothing for the last entry. -/
example : ReadsArray (demoEnv []) top [.occur .zeroOrMore (.prelude .int), .prelude .int] [.integer 1] .no ∧
    ¬ Accepts (demoEnv []) top (.array [.occur .zeroOrMore (.prelude .int), .prelude .int]) (.array [.integer 1]) := by
  have h : ReadsArray (demoEnv []) top [.occur .zeroOrMore (.prelude .int), .prelude .int] [.integer 1] .no := by
    refine .cons (y := []) (.occur (.more (y := []) (.single rfl (.take _ (validate_of_fuel 60 (by decide)))) (by decide) ?_))
      (.fails _ (.single rfl (.none _ _)) rfl)
    exact .enough (.single rfl (.none _ _))
  refine ⟨h, fun ha => ?_⟩
  have := (C65_array_accepts c65_agrees (demo_fatal []) (by decide)
    ((Value.WFArr_iff _).mpr (by simp [Value.WF]))).mp ha
  cases readsArray_det h this

/-- `{? "a" => int, * tstr => tstr}`: with no cut the first entry passes `"a": "x"` on to the second. -/
example : ReadsMap (demoEnv []) top [.occur .optional (.keyValue (.literal (.text "a")) (.prelude .int) false),
      .occur .zeroOrMore (.keyValue (.prelude .tstr) (.prelude .tstr) false)] [(.text "a", .text "x")] (.took []) ∧
    Accepts (demoEnv []) top (.map [.occur .optional (.keyValue (.literal (.text "a")) (.prelude .int) false),
      .occur .zeroOrMore (.keyValue (.prelude .tstr) (.prelude .tstr) false)]) (.map [(.text "a", .text "x")]) := by
  have h := accepts_of_fuel (env := demoEnv []) (c := top)
    (n := .map [.occur .optional (.keyValue (.literal (.text "a")) (.prelude .int) false),
      .occur .zeroOrMore (.keyValue (.prelude .tstr) (.prelude .tstr) false)]) (v := .map [(.text "a", .text "x")]) 60 (by decide)
  exact ⟨(C65_map_accepts c65_agrees (demo_fatal []) (by decide)
    (by simp [Value.WF, Value.WFMap, VMap.Sorted])).mp h, h⟩

/-- `{? "a": int, * tstr => tstr}`: with the cut it does not. -/
example : ReadsMap (demoEnv []) top [.occur .optional (.keyValue (.literal (.text "a")) (.prelude .int) true),
      .occur .zeroOrMore (.keyValue (.prelude .tstr) (.prelude .tstr) false)] [(.text "a", .text "x")] .cut := by
  refine .fails _ (.occur (.ends _ _ (.single rfl ?_) rfl)) rfl
  exact .refuse (e := .mismatch "int") (pre := []) true [] (by simp) (validate_of_fuel 60 (by decide)) (validate_of_fuel 60 (by decide))

/-- A rule of the schema of C15, given as text there: `a = [* pair, ? tstr]` reads `[1, true, "y"]` to the end. -/
example : ReadsArray (c15Libs.env c15Table) top [.occur .zeroOrMore (.rule "pair" []), .occur .optional (.prelude .tstr)]
    [.integer 1, .bool true, .text "y"] (.took []) :=
  (C65_rule c15Libs (name := "a") (by decide +kernel) ⟨[], _, rfl, by simp⟩
    ((Value.WFArr_iff _).mpr (by simp [Value.WF]))).mp (accepts_of_fuel 60 (by decide))

end Cddl
