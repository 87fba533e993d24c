import Verif.Proofs.ParseImage2
import Verif.Proofs.ParseSlice

/-! # C42  Print/parse round trip -/

namespace Cddl

/-- C42.  Parsing the printed form of a syntax tree gives back that tree.  The premise `OkCddl` says which trees have
a text at all: names are identifiers, numbers are in range, and so on (Spec/Print). -/
theorem C42_roundtrip {x : ParseExt} {p : PrintExt} {c : Ast.Cddl} (h : OkCddl x p c) :
    parseCddl x (printCddl p c) = .ok c := parseCddl_run (print_layout h)

/-- C42.  The same for every other way of writing the tree: any layout of a tree, with white space and comments
between the tokens, numbers in any base and optional commas, parses to that tree. -/
theorem C42_layout {x : ParseExt} {s : List Char} {c : Ast.Cddl} (h : GCddl x true s c) :
    parseCddl x (String.ofList s) = .ok c := parseCddl_run h

/-- C42.  So a text is the layout of at most one tree. -/
theorem C42_unambiguous {x : ParseExt} {s : List Char} {c d : Ast.Cddl} (hc : GCddl x true s c) (hd : GCddl x true s d) :
    c = d := by
  have h1 := parseCddl_run hc
  rw [parseCddl_run hd] at h1
  cases h1; rfl

/-- C42.  And no two trees are printed alike. -/
theorem C42_injective {x : ParseExt} {p : PrintExt} {c d : Ast.Cddl} (hc : OkCddl x p c) (hd : OkCddl x p d)
    (h : printCddl p c = printCddl p d) : c = d := by
  have h1 := C42_roundtrip hc
  rw [h, C42_roundtrip hd] at h1
  cases h1; rfl

/-- Prints text as it is, and every float as `1.0`. -/
def demoPrint : PrintExt := ⟨fun _ => "1.0".toList, fun s => s.toList⟩

/-- A tree with most of the constructs. -/
def demoTree : Ast.Cddl :=
  [⟨"a", ["t"], .assignType [.simple (.map [[.mk (some .optional) (.keyed (.bareword "b") true
      [.simple (.array [[.mk (some (.numbered 2 18446744073709551615)) (.member [.simple (.typename "t" [])])],
        [.mk none (.parens [[.mk none (.member [.simple (.value (.nint (-7)))])]])]])]),
      .mk none (.keyed (.type1 (.simple (.typename "tstr" []))) false [.range (.value (.uint 0)) (.value (.uint 9)) true,
        .control (.typename "bstr" []) (.value (.uint 4)) "size"])]])]⟩,
   ⟨"g", [], .assignGroup (.mk none (.parens [[.mk none (.keyed (.value (.text "k")) true
      [.simple (.typename "a" [.simple (.value (.bytes [0, 255]))])])]]))⟩]

set_option maxRecDepth 100000 in
example : (demoTree.flatMap (prRule demoPrint)) = ("a<t> = {? b: [2*18446744073709551615 t,  // (-7, ), ], " ++
    "tstr => 0 .. 9 / bstr .size 4, }\ng = (\"k\": a<h'00ff'>, )\n").toList := by
  simp [demoTree, prRule, prParams, prTy, prTy1, prTy2, prGroup, prChoices, prChoice, prEntry, prVal, prAlts, prName, prArgs,
    prValue, prOccur, decText, hexText, demoPrint, Nat.digitChar]

theorem ident_of {c : Char} {t : List Char} (hc : EAlpha c) (ht : ∀ d ∈ t, EAlpha d ∨ Digit d) : Ident (c :: t) := by
  refine .mk hc ?_
  induction t with
  | nil => exact .nil
  | cons d t ih => exact .cons (ps := []) (by simp) (ht d (by simp)) (ih fun e he => ht e (by simp [he]))

theorem demoTree_ok : OkCddl demoExt demoPrint demoTree := by
  have i1 : Ident "a".toList := ident_of (by unfold EAlpha; decide) (by unfold EAlpha Digit; decide)
  have i2 : Ident "b".toList := ident_of (by unfold EAlpha; decide) (by unfold EAlpha Digit; decide)
  have i3 : Ident "t".toList := ident_of (by unfold EAlpha; decide) (by unfold EAlpha Digit; decide)
  have i4 : Ident "tstr".toList := ident_of (by unfold EAlpha; decide) (by unfold EAlpha Digit; decide)
  have i5 : Ident "bstr".toList := ident_of (by unfold EAlpha; decide) (by unfold EAlpha Digit; decide)
  have i6 : Ident "size".toList := ident_of (by unfold EAlpha; decide) (by unfold EAlpha Digit; decide)
  have i7 : Ident "g".toList := ident_of (by unfold EAlpha; decide) (by unfold EAlpha Digit; decide)
  have q : Quoted true '"' "k".toList := .plain (by unfold PlainChar; decide) (by decide) (by decide) .nil
  refine ⟨by simp [demoTree], fun r hr => ?_⟩
  rcases List.mem_cons.1 hr with rfl | hr
  · refine ⟨i1, fun a ha => ?_, by simp, ?_⟩
    · rw [List.mem_singleton.1 ha]; exact i3
    · simp only [OkTy1s, OkTy1, OkTy2, OkGroup, OkChoice, OkEntry, OkVal, OkOccur, OkValue, and_true, true_and]
      refine ⟨by simp, ⟨i2, by simp, ⟨by simp, ⟨by decide, by simp, i3⟩, by simp, by simp, by decide⟩⟩, i4, by simp,
        ⟨by decide, by decide⟩, i5, by decide, i6⟩
  · rw [List.mem_singleton.1 hr]
    refine ⟨i7, by simp, ?_, trivial⟩
    simp only [OkTy1s, OkTy1, OkTy2, OkGroup, OkChoice, OkEntry, OkVal, OkValue, and_true, true_and]
    exact ⟨by simp, ⟨q, rfl⟩, by simp, i1⟩

example : parseCddl demoExt (printCddl demoPrint demoTree) = .ok demoTree := C42_roundtrip demoTree_ok

/-- C42.  Every tree that comes from a text can be printed, so the round trip holds for all of them: no text parses to
anything that could not be written down and read again. -/
theorem C42_parsed {x : ParseExt} {p : PrintExt} (hw : Writes x p) {s : String} {c : Ast.Cddl} (h : parseCddl x s = .ok c) :
    parseCddl x (printCddl p c) = .ok c := C42_roundtrip (parseCddl_ok hw h)

/-- C42.  The trees that some text parses to are exactly those described by `OkCddl`.  In particular none of them
contains `GrpEntVal::Groupname`, an empty type, or a number out of range. -/
theorem C42_image {x : ParseExt} {p : PrintExt} (hw : Writes x p) (c : Ast.Cddl) :
    (∃ s, parseCddl x s = .ok c) ↔ OkCddl x p c :=
  ⟨fun ⟨_, h⟩ => parseCddl_ok hw h, fun h => ⟨_, C42_roundtrip h⟩⟩

/-- Reads every float as 1.0 and text as it is, within the range of characters that the parser takes. -/
def asciiExt : ParseExt :=
  ⟨fun _ => some ⟨0x3ff0000000000000⟩, fun s => if s.toList.all fun c => c.toNat ≤ 0x10FFD then some s else none, fun _ => none⟩

theorem writes_ascii : Writes asciiExt demoPrint where
  float s f h := by
    have hf : f = ⟨0x3ff0000000000000⟩ := by
      cases h with
      | float _ _ _ _ _ _ h => cases h; rfl
    subst hf
    exact .float (sg := []) (u := ['1']) (fr := ['.', '0']) (ex := []) (.inl rfl)
      (.dec (ds := []) (by unfold Digit; decide) (by decide) (by simp)) (fun _ => ⟨by decide, by unfold Digit; decide⟩)
      (.some (ds := ['0']) (by simp) (by unfold Digit; decide)) .none (.inl (by simp)) rfl
  text s t h := by
    have key : ∀ s, Quoted false '"' s → (s.all fun c => c.toNat ≤ 0x10FFD) = true → Quoted true '"' s := by
      intro s hq
      induction hq with
      | nil => exact fun _ => .nil
      | @plain c t h h1 h2 _ ih =>
        intro ha
        simp only [List.all_cons, Bool.and_eq_true, decide_eq_true_eq] at ha
        exact .plain ⟨h.1, h.2.1, h.2.2.1, fun _ => ha.1⟩ h1 h2 (ih ha.2)
      | esc _ ih =>
        intro ha
        simp only [List.all_cons, Bool.and_eq_true, decide_eq_true_eq] at ha
        exact .esc (ih ha.2.2)
    cases h with
    | @text s _ hq hu =>
      simp only [asciiExt] at hu
      split at hu
      · rename_i ha
        cases hu
        rw [String.toList_ofList] at ha
        refine ⟨by simp only [demoPrint, String.toList_ofList]; exact key _ hq ha, ?_⟩
        simp only [demoPrint, asciiExt, String.toList_ofList, ha, if_true]
      · cases hu

set_option maxRecDepth 100000 in
example : parseCddl asciiExt "a = [ * (b, ? c: 0x1F) // \"k\" ^=> 2.50]" = .ok [⟨"a", [], .assignType [.simple (.array
    [[.mk (some .zeroOrMore) (.parens [[.mk none (.member [.simple (.typename "b" [])]),
      .mk (some .optional) (.keyed (.bareword "c") true [.simple (.value (.uint 31))])]])],
     [.mk none (.keyed (.type1 (.simple (.value (.text "k")))) true
      [.simple (.value (.float ⟨0x3ff0000000000000⟩))])]])]⟩] := rfl

end Cddl
