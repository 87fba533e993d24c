import Verif.Proofs.Level

/-! # In the grammar, brackets and quotes come in pairs -/

namespace Cddl

open Ast (Ty Ty1 Ty2 MemberKeyVal GrpEntVal GrpEnt Group GrpChoice RuleVal)

/-- Behind the text everything is as before it. -/
def Neutral (s : List Char) : Prop := ∀ n t, Closes n (s ++ t) ↔ Closes n t

theorem Neutral.nil : Neutral [] := fun _ _ => Iff.rfl

theorem Neutral.app {a b : List Char} (h : Neutral a) (h' : Neutral b) : Neutral (a ++ b) := fun n t => by
  rw [List.append_assoc, h, h']

theorem Neutral.plains {a : List Char} (h : ∀ c ∈ a, Plain c) : Neutral a := fun n t => lev_plains h n t

theorem Neutral.cons {c : Char} {a : List Char} (hc : Plain c) (h : Neutral a) : Neutral (c :: a) := fun n t => by
  rw [List.cons_append, lev_plain hc, h]

theorem WS.neutral {w : List Char} (h : WS w) : Neutral w := h.lev

theorem Neutral.brackets {c d : Char} {a : List Char} (hc : c = '(' ∨ c = '[' ∨ c = '{') (hd : d = ')' ∨ d = ']' ∨ d = '}')
    (h : Neutral a) : Neutral (c :: a ++ [d]) := by
  intro n t
  have h1 : Closes n (c :: a ++ [d] ++ t) ↔ Closes (n + 1) (a ++ ([d] ++ t)) := by
    rw [List.append_assoc, List.cons_append]
    conv => lhs; rw [Closes, Lev, if_pos hc]
  rw [h1, h]
  conv => lhs; rw [List.singleton_append, Closes, Lev, if_neg (by rcases hd with rfl | rfl | rfl <;> decide), if_pos hd]
  simp

theorem EAlpha.plain {c : Char} (h : EAlpha c) : Plain c := by
  have : ealphaChar c = true := by
    rcases h with ⟨h1, h2⟩ | ⟨h1, h2⟩ | rfl | rfl | rfl
    · simp [ealphaChar, h1, h2]
    · simp [ealphaChar, h1, h2]
    all_goals decide
  exact (tame'_ealpha c this).1

theorem Digit.plain {c : Char} (h : Digit c) : Plain c := (tame'_digit c (by simp [isDigit, h.1, h.2])).1

theorem HexDigit.plain {c : Char} (h : HexDigit c) : Plain c := by
  refine (tame'_hexDigit c ?_).1
  rcases h with h | h | h
  · simp [isHexDigit, isDigit, h.1, h.2]
  · simp [isHexDigit, h.1, h.2]
  · simp [isHexDigit, h.1, h.2]

theorem IdTail.plain {s : List Char} (h : IdTail s) : ∀ c ∈ s, Plain c := by
  induction h with
  | nil => simp
  | cons h1 h2 _ ih =>
    intro c hc
    rcases List.mem_append.1 hc with hc | hc
    · rcases h1 c hc with rfl | rfl <;> decide
    · rcases List.mem_cons.1 hc with rfl | hc
      · rcases h2 with h | h
        · exact h.plain
        · exact h.plain
      · exact ih c hc

theorem Ident.neutral {s : List Char} : Ident s → Neutral s
  | .mk hc ht => .cons hc.plain (.plains ht.plain)

theorem UintText.plain {s : List Char} {n : Nat} (h : UintText s n) : ∀ c ∈ s, Plain c := by
  cases h with
  | zero => decide
  | dec h1 _ h2 =>
    intro c hc
    rcases List.mem_cons.1 hc with rfl | hc
    · exact h1.plain
    · exact (h2 c hc).plain
  | hex _ h =>
    intro c hc
    rcases List.mem_cons.1 hc with rfl | hc
    · decide
    · rcases List.mem_cons.1 hc with rfl | hc
      · decide
      · exact (h c hc).plain
  | bin _ h =>
    intro c hc
    rcases List.mem_cons.1 hc with rfl | hc
    · decide
    · rcases List.mem_cons.1 hc with rfl | hc
      · decide
      · rcases h c hc with rfl | rfl <;> decide

theorem UintText.neutral {s : List Char} {n : Nat} (h : UintText s n) : Neutral s := .plains h.plain

theorem digits_neutral {ds : List Char} (h : ∀ d ∈ ds, Digit d) : Neutral ds := .plains fun c hc => (h c hc).plain

theorem FracText.neutral {s : List Char} : FracText s → Neutral s
  | .none => .nil
  | .some _ h => .cons (by decide) (digits_neutral h)

theorem ExpText.neutral {s : List Char} : ExpText s → Neutral s
  | .none => .nil
  | .plain _ h => .cons (by decide) (digits_neutral h)
  | .signed hc _ h => .cons (by decide) (.cons (by rcases hc with rfl | rfl <;> decide) (digits_neutral h))

theorem Quoted.lev {b : Bool} {q : Char} {lit esc : Spot} (hqb : q ≠ '\\')
    (hlit : ∀ c, Spot.next lit c = if c = q then .code else if c = '\\' then esc else lit)
    (hesc : ∀ c, Spot.next esc c = lit) (h1 : lit ≠ .code) (h2 : esc ≠ .code) {s : List Char} (h : Quoted b q s) (n : Nat)
    (t : List Char) : Lev lit n (s ++ q :: t) ↔ Closes n t := by
  have step : ∀ {p : Spot} (c t), p ≠ .code → (Lev p n (c :: t) ↔ Lev (p.next c) n t) := by
    intro p c t hp
    cases p with
    | code => exact absurd rfl hp
    | _ => exact Iff.rfl
  induction h with
  | nil => rw [List.nil_append, step _ _ h1, hlit, if_pos rfl]
  | plain _ hc hb _ ih =>
    rw [List.cons_append, step _ _ h1, hlit, if_neg hc, if_neg hb]
    exact ih
  | esc _ ih =>
    rw [List.cons_append, List.cons_append, step _ _ h1, hlit, if_neg (Ne.symm hqb), if_pos rfl, step _ _ h2, hesc]
    exact ih

theorem Quoted.text {b : Bool} {s : List Char} (h : Quoted b '"' s) : Neutral ('"' :: s ++ ['"']) := by
  intro n t
  have := h.lev (lit := .text) (esc := .textEsc) (by decide) (fun _ => rfl) (fun _ => rfl) (by decide) (by decide) n t
  rw [← this, List.append_assoc]
  rfl

theorem Quoted.bytes {b : Bool} {s : List Char} (h : Quoted b '\'' s) : Neutral ('\'' :: s ++ ['\'']) := by
  intro n t
  have := h.lev (lit := .bytes) (esc := .bytesEsc) (by decide) (fun _ => rfl) (fun _ => rfl) (by decide) (by decide) n t
  rw [← this, List.append_assoc]
  rfl

theorem ValueText.neutral {x : ParseExt} {b : Bool} {s : List Char} {v : Ast.Value} : ValueText x b s v → Neutral s
  | .uint h _ => h.neutral
  | .nint h _ => .cons (by decide) h.neutral
  | .float hs hu _ hf he _ _ =>
    .app (.app (.app (by
      rcases hs with rfl | rfl
      · exact .nil
      · exact .cons (by decide) .nil) hu.neutral) hf.neutral) he.neutral
  | .text h _ => h.text
  | .bytes h _ => h.bytes
  | .hex h _ => .cons (by decide) h.bytes
  | .base64 h _ => .cons (by decide) (.cons (by decide) (.cons (by decide) h.bytes))

theorem OccurText.neutral {s : List Char} {o : OccurLimit} : OccurText s o → Neutral s
  | .optional => .cons (by decide) .nil
  | .plus => .cons (by decide) .nil
  | .star => .cons (by decide) .nil
  | .lower h _ => .app h.neutral (.cons (by decide) .nil)
  | .upper h _ => .cons (by decide) h.neutral
  | .both h _ h' _ => .app h.neutral (.cons (by decide) h'.neutral)

theorem OptComma.neutral {s : List Char} : OptComma s → Neutral s
  | .none h => h.neutral
  | .some h h' => .app h.neutral (.cons (by decide) h'.neutral)

mutual
theorem GTy2.neutral {x : ParseExt} {b : Bool} {s : List Char} {t : Ty2} : GTy2 x b s t → Neutral s
  | .value h => h.neutral
  | .name h => h.neutral
  | .parens hw h hw' => .brackets (by decide) (by decide) (.app (.app hw.neutral h.neutral) hw'.neutral)
  | .map hw h hw' => .brackets (by decide) (by decide) (.app (.app hw.neutral h.neutral) hw'.neutral)
  | .array hw h hw' => .brackets (by decide) (by decide) (.app (.app hw.neutral h.neutral) hw'.neutral)
  | .unwrap hw h => .app (.cons (by decide) hw.neutral) h.neutral
  | .inline hv hw h hw' =>
    .app (.cons (by decide) hv.neutral) (.brackets (by decide) (by decide) (.app (.app hw.neutral h.neutral) hw'.neutral))
  | .choiceify hw h => .app (.cons (by decide) hw.neutral) h.neutral
theorem GName.neutral {x : ParseExt} {b : Bool} {s : List Char} {n : String} {as : List Ty1} : GName x b s n as → Neutral s
  | .plain h => h.neutral
  | .generic h hw ha => .app h.neutral (.app (.cons (by decide) hw.neutral) (.app ha.neutral (.cons (by decide) .nil)))
theorem GArgs.neutral {x : ParseExt} {b : Bool} {s : List Char} {as : List Ty1} : GArgs x b s as → Neutral s
  | .one h hw => .app h.neutral hw.neutral
  | .cons h hw hw' ha => .app (.app (.app h.neutral hw.neutral) (.cons (by decide) hw'.neutral)) ha.neutral
theorem GTy1.neutral {x : ParseExt} {b : Bool} {s : List Char} {t : Ty1} : GTy1 x b s t → Neutral s
  | .simple h => h.neutral
  | .range h hw hw' h' _ => .app h.neutral (.app hw.neutral (.app (.plains (by decide)) (.app hw'.neutral h'.neutral)))
  | .rangeExcl h hw hw' h' _ => .app h.neutral (.app hw.neutral (.app (.plains (by decide)) (.app hw'.neutral h'.neutral)))
  | .control h hw ho hw' h' _ =>
    .app h.neutral (.app hw.neutral (.app (.cons (by decide) ho.neutral) (.app hw'.neutral h'.neutral)))
theorem GTy.neutral {x : ParseExt} {b : Bool} {s : List Char} {t : Ty} : GTy x b s t → Neutral s
  | .one h => h.neutral
  | .cons h hw hw' h' => .app (.app h.neutral (.app hw.neutral (.cons (by decide) hw'.neutral))) h'.neutral
theorem GGroup.neutral {x : ParseExt} {b : Bool} {s : List Char} {g : Group} : GGroup x b s g → Neutral s
  | .one h => h.neutral
  | .cons h hw hw' h' =>
    .app (.app h.neutral (.app hw.neutral (.cons (by decide) (.cons (by decide) hw'.neutral)))) h'.neutral
theorem GChoice.neutral {x : ParseExt} {b : Bool} {s : List Char} {g : GrpChoice} : GChoice x b s g → Neutral s
  | .nil => .nil
  | .cons h hc h' _ => .app (.app h.neutral hc.neutral) h'.neutral
theorem GEntry.neutral {x : ParseExt} {b : Bool} {s : List Char} {e : GrpEnt} : GEntry x b s e → Neutral s
  | .plain h => h.neutral
  | .occur ho hw h _ => .app (.app ho.neutral hw.neutral) h.neutral
theorem GVal.neutral {x : ParseExt} {b : Bool} {s : List Char} {v : GrpEntVal} : GVal x b s v → Neutral s
  | .bareword hk hw hw' h => .app (.app (.app hk.neutral hw.neutral) (.cons (by decide) hw'.neutral)) h.neutral
  | .value hk hw hw' h => .app (.app (.app hk.neutral hw.neutral) (.cons (by decide) hw'.neutral)) h.neutral
  | .type1 hk hw hw' h =>
    .app (.app (.app hk.neutral hw.neutral) (.cons (by decide) (.cons (by decide) hw'.neutral))) h.neutral
  | .cut hk hw hv hw' h => .app (.app (.app (.app hk.neutral hw.neutral) (.cons (by decide) hv.neutral))
      (.cons (by decide) (.cons (by decide) hw'.neutral))) h.neutral
  | .member h hw _ => .app h.neutral hw.neutral
  | .groupname h _ => h.neutral
  | .parens hw h hw' _ => .brackets (by decide) (by decide) (.app (.app hw.neutral h.neutral) hw'.neutral)
  | .comma hw h hv hv' hw' => .brackets (by decide) (by decide)
      (.app (.app hw.neutral (.app h.neutral (.app hv.neutral (.cons (by decide) hv'.neutral)))) hw'.neutral)
end

theorem GParams.neutral {s : List Char} {ns : List String} : GParams s ns → Neutral s
  | .one h hw => .app h.neutral hw.neutral
  | .cons h hw hw' ha => .app (.app (.app h.neutral hw.neutral) (.cons (by decide) hw'.neutral)) ha.neutral

theorem GOptParams.neutral {s : List Char} {ns : List String} : GOptParams s ns → Neutral s
  | .none => .nil
  | .some hw ha => .app (.cons (by decide) hw.neutral) (.app ha.neutral (.cons (by decide) .nil))

theorem GRule.neutral {x : ParseExt} {b : Bool} {s : List Char} {r : Ast.Rule} : GRule x b s r → Neutral s
  | .mk hn hp hw hw' hv =>
    .app (.app (.app (.app hn.neutral hp.neutral) hw.neutral) (.cons (by decide) hw'.neutral)) (by
      cases hv with
      | type h => exact h.neutral
      | group h _ => exact h.neutral)

theorem GRules.neutral {x : ParseExt} {b : Bool} {s : List Char} {c : Ast.Cddl} : GRules x b s c → Neutral s
  | .one h hw _ => .app h.neutral hw.neutral
  | .cons h hw h' _ => .app (.app h.neutral hw.neutral) h'.neutral

theorem GCddl.neutral {x : ParseExt} {b : Bool} {s : List Char} {c : Ast.Cddl} : GCddl x b s c → Neutral s
  | .mk hw h => .app hw.neutral h.neutral

theorem Neutral.closes {s : List Char} (h : Neutral s) : Closes 0 s := by
  have := (h 0 []).2 ⟨rfl, rfl⟩
  rwa [List.append_nil] at this

/-- A line ending at the end makes no difference. -/
theorem Lev.line : ∀ {s : List Char} {p : Spot} {n : Nat}, Lev p n (s ++ ['\n']) → s.foldl Spot.next p = .code → Lev p n s
  | [], p, n, h, hs => by
    have hs : p = .code := hs
    subst hs
    exact ⟨rfl, lev_nil ((lev_plain (by decide) n []).1 h)⟩
  | c :: s, p, n, h, hs => by
    rw [List.foldl_cons] at hs
    cases p with
    | code =>
      rw [List.cons_append, Lev] at h
      rw [Lev]
      split at h
      · rename_i hc
        rw [if_pos hc]
        have : Spot.next .code c = .code := by rcases hc with rfl | rfl | rfl <;> rfl
        rw [this] at hs
        exact h.line hs
      · rename_i hc
        rw [if_neg hc]
        split at h
        · rename_i hc
          rw [if_pos hc]
          have : Spot.next .code c = .code := by rcases hc with rfl | rfl | rfl <;> rfl
          rw [this] at hs
          exact ⟨h.1, h.2.line hs⟩
        · rename_i hc
          rw [if_neg hc]
          exact h.line hs
    | _ => exact Lev.line (s := s) (p := Spot.next _ c) (n := n) h hs

end Cddl
