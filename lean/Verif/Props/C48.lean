import Verif.Model.Display

/-! # C48  The text of an error tells the error -/

namespace Cddl

/-- A number for each kind of parser error. -/
def kindCode : ParseErrorKind → Fin 13
  | .malformedInteger => 0
  | .malformedFloat => 1
  | .malformedHex => 2
  | .malformedText => 3
  | .malformedBase64 => 4
  | .unparseable => 5

/-- A number for each kind of error, the same for cuts and mismatches. -/
def Err.code : Err → Fin 13
  | .parseError p => kindCode p.kind
  | .structural _ => 6
  | .mismatch _ => 7
  | .mapCut _ => 7
  | .missingRule _ => 8
  | .unsupported _ => 9
  | .valueError _ => 10
  | .genericError => 11

/-- What the text starts with. -/
def errPre : Fin 13 → List Char
  | 0 => "MalformedInteger(".toList
  | 1 => "MalformedFloat(".toList
  | 2 => "MalformedHex(".toList
  | 3 => "MalformedText(".toList
  | 4 => "MalformedBase64(".toList
  | 5 => "Unparseable(".toList
  | 6 => "Structural(".toList
  | 7 => "Mismatch(expected ".toList
  | 8 => "MissingRule(".toList
  | 9 => "Unsupported ".toList
  | 10 => "ValueError(".toList
  | 11 => "GenericError".toList
  | 12 => "-----------".toList

/-- What it ends with. -/
def errSuf : Fin 13 → List Char
  | 9 => []
  | 11 => []
  | 12 => []
  | _ => [')']

/-- The part in between. -/
def Err.body : Err → String
  | .parseError p => p.ctx
  | .structural m => m
  | .mismatch m => m
  | .mapCut m => m
  | .missingRule n => n
  | .unsupported m => m
  | .valueError m => m
  | .genericError => ""

/-- The error with that code and text. -/
def errOf : Fin 13 → String → Err
  | 0, m => .parseError ⟨.malformedInteger, m⟩
  | 1, m => .parseError ⟨.malformedFloat, m⟩
  | 2, m => .parseError ⟨.malformedHex, m⟩
  | 3, m => .parseError ⟨.malformedText, m⟩
  | 4, m => .parseError ⟨.malformedBase64, m⟩
  | 5, m => .parseError ⟨.unparseable, m⟩
  | 6, m => .structural m
  | 7, m => .mismatch m
  | 8, m => .missingRule m
  | 9, m => .unsupported m
  | 10, m => .valueError m
  | _, _ => .genericError

theorem errOf_parts (e : Err) : errOf e.code e.body = e.eraseMapcut := by
  cases e with
  | parseError p => obtain ⟨k, c⟩ := p; cases k <;> rfl
  | _ => rfl

theorem kind_pre : ∀ k : ParseErrorKind, (k.debug ++ "(").toList = errPre (kindCode k)
  | .malformedInteger => by decide +kernel
  | .malformedFloat => by decide +kernel
  | .malformedHex => by decide +kernel
  | .malformedText => by decide +kernel
  | .malformedBase64 => by decide +kernel
  | .unparseable => by decide +kernel

theorem kind_suf (k : ParseErrorKind) : errSuf (kindCode k) = ")".toList := by cases k <;> decide +kernel

theorem display_parts : ∀ e : Err, e.display.toList = errPre e.code ++ (e.body.toList ++ errSuf e.code)
  | .parseError p => by
    show (p.kind.debug ++ "(" ++ p.ctx ++ ")").toList = errPre (kindCode p.kind) ++ (p.ctx.toList ++ errSuf (kindCode p.kind))
    rw [kind_suf, ← kind_pre, String.toList_append, String.toList_append, List.append_assoc]
  | .structural m => by
    show ("Structural(" ++ m ++ ")").toList = "Structural(".toList ++ (m.toList ++ ")".toList)
    rw [String.toList_append, String.toList_append, List.append_assoc]
  | .mismatch m => by
    show ("Mismatch(expected " ++ m ++ ")").toList = "Mismatch(expected ".toList ++ (m.toList ++ ")".toList)
    rw [String.toList_append, String.toList_append, List.append_assoc]
  | .mapCut m => by
    show ("Mismatch(expected " ++ m ++ ")").toList = "Mismatch(expected ".toList ++ (m.toList ++ ")".toList)
    rw [String.toList_append, String.toList_append, List.append_assoc]
  | .missingRule m => by
    show ("MissingRule(" ++ m ++ ")").toList = "MissingRule(".toList ++ (m.toList ++ ")".toList)
    rw [String.toList_append, String.toList_append, List.append_assoc]
  | .unsupported m => by
    show ("Unsupported " ++ m).toList = "Unsupported ".toList ++ (m.toList ++ [])
    rw [String.toList_append, List.append_nil]
  | .valueError m => by
    show ("ValueError(" ++ m ++ ")").toList = "ValueError(".toList ++ (m.toList ++ ")".toList)
    rw [String.toList_append, String.toList_append, List.append_assoc]
  | .genericError => by decide +kernel

theorem errPre_inj : ∀ i j : Fin 13, (errPre i).take 11 = (errPre j).take 11 → i = j := by decide +kernel

theorem errPre_long : ∀ i : Fin 13, 11 ≤ (errPre i).length := by decide +kernel

theorem display_erase : ∀ e : Err, e.eraseMapcut.display = e.display
  | .parseError _ => rfl
  | .structural _ => rfl
  | .mismatch _ => rfl
  | .mapCut _ => rfl
  | .missingRule _ => rfl
  | .unsupported _ => rfl
  | .valueError _ => rfl
  | .genericError => rfl

/-- C48.  Two errors have the same text exactly if they are the same error, a cut counting as the mismatch it is
reported as. -/
theorem C48_display (e e' : Err) : e.display = e'.display ↔ e.eraseMapcut = e'.eraseMapcut := by
  constructor
  · intro h
    have h := congrArg String.toList h
    rw [display_parts, display_parts] at h
    have h7 := congrArg (List.take 11) h
    rw [List.take_append_of_le_length (errPre_long _), List.take_append_of_le_length (errPre_long _)] at h7
    have hc := errPre_inj _ _ h7
    rw [hc] at h
    have hb := String.toList_inj.mp (List.append_cancel_right (List.append_cancel_left h))
    rw [← errOf_parts, ← errOf_parts, hc, hb]
  · intro h
    rw [← display_erase e, h, display_erase]

/-- C48.  In particular the text says whether the error is fatal. -/
theorem C48_fatal {e e' : Err} (h : e.display = e'.display) : e.isFatal = e'.isFatal := by
  have h := (C48_display e e').mp h
  have : ∀ e : Err, e.eraseMapcut.isFatal = e.isFatal := by intro e; cases e <;> rfl
  rw [← this e, h, this]

/-- A cut and a mismatch read alike; a missing rule and a mismatch never do. -/
example : (Err.mapCut "int").display = (Err.mismatch "int").display ∧
    (Err.mismatch "int").display = "Mismatch(expected int)" ∧
    (Err.missingRule "int").display ≠ (Err.mismatch "int").display := by decide +kernel

end Cddl
