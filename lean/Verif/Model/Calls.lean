import Verif.Model.Parse

/-!
# How often the parser calls `type2`

The parsers of Model/Nom and Model/Parse once more, each result with the number of calls of `type2`
(/repo/src/parser/mod.rs:940-952) made on the way.  The results are those of the parsers without the count
(`parseCddlC_fst` in Proofs/Calls).  Parsers that do not call `type2` are taken as they are, with the count 0.
-/

namespace Cddl

open Ast (Ty Ty1 Ty2 MemberKeyVal GrpEntVal GrpEnt Group GrpChoice RuleVal)

/-- A parser that counts.  As `P` (Model/Nom) with the number of calls. -/
abbrev PC (α : Type) := List Char → PR α × Nat

/-- A parser that makes no call that counts. -/
def free {α : Type} (p : P α) : PC α := fun i => (p i, 0)

/-- Rust's `?` on an `IResult`, as `PR.bind`; the calls of both parts are added. -/
def bindC {α β : Type} (x : PR α × Nat) (f : List Char → α → PR β × Nat) : PR β × Nat :=
  match x.1 with
  | .ok r a => ((f r a).1, x.2 + (f r a).2)
  | .err e => (.err e, x.2)
  | .fail e => (.fail e, x.2)
  | .panic => (.panic, x.2)
  | .oof => (.oof, x.2)

/-- `nom::combinator::map`, as `pmap`. -/
def pmapC {α β : Type} (f : α → β) (p : PC α) : PC β := fun i => bindC (p i) fun r a => (.ok r (f a), 0)

/-- `nom::sequence::pair`, as `pair`. -/
def pairC {α β : Type} (p : PC α) (q : PC β) : PC (α × β) := fun i =>
  bindC (p i) fun r a => bindC (q r) fun r' b => (.ok r' (a, b), 0)

/-- `nom::sequence::preceded`, as `preceded`. -/
def precededC {α β : Type} (p : PC α) (q : PC β) : PC β := fun i => bindC (p i) fun r _ => q r

/-- `nom::sequence::terminated`, as `terminated`. -/
def terminatedC {α β : Type} (p : PC α) (q : PC β) : PC α := fun i =>
  bindC (p i) fun r a => bindC (q r) fun r' _ => (.ok r' a, 0)

/-- `nom::sequence::delimited`, as `delimited`. -/
def delimitedC {α β γ : Type} (p : PC α) (q : PC β) (s : PC γ) : PC β := precededC p (terminatedC q s)

/-- `nom::combinator::opt`, as `opt`. -/
def optC {α : Type} (p : PC α) : PC (Option α) := fun i =>
  match (p i).1 with
  | .ok r a => (.ok r (some a), (p i).2)
  | .err _ => (.ok i none, (p i).2)
  | .fail e => (.fail e, (p i).2)
  | .panic => (.panic, (p i).2)
  | .oof => (.oof, (p i).2)

/-- `nom::branch::alt`, as `alt`: what the first alternative has cost is added to the cost of the second. -/
def altC {α : Type} (p q : PC α) : PC α := fun i =>
  match (p i).1 with
  | .err _ => ((q i).1, (p i).2 + (q i).2)
  | r => (r, (p i).2)

/-- The loop of `nom::multi::many0`, as `many0Loop`. -/
def many0LoopC {α : Type} (p : PC α) : Nat → PC (List α)
  | 0, _ => (.oof, 0)
  | n + 1, i =>
    match (p i).1 with
    | .ok r a =>
      if r.length = i.length then (.err (unparseable i), (p i).2)
      else
        let t := bindC (many0LoopC p n r) fun r' as => (.ok r' (a :: as), 0)
        (t.1, (p i).2 + t.2)
    | .err _ => (.ok i [], (p i).2)
    | .fail e => (.fail e, (p i).2)
    | .panic => (.panic, (p i).2)
    | .oof => (.oof, (p i).2)

/-- `nom::multi::many0`, as `many0`. -/
def many0C {α : Type} (p : PC α) : PC (List α) := fun i => many0LoopC p (i.length + 1) i

/-- `nom::multi::many1`, as `many1`. -/
def many1C {α : Type} (p : PC α) : PC (List α) := fun i =>
  bindC (p i) fun r a => bindC (many0C p r) fun r' as => (.ok r' (a :: as), 0)

/-- The loop of `nom::multi::separated_list1`, as `sepLoop`. -/
def sepLoopC {α β : Type} (sep : PC β) (p : PC α) : Nat → PC (List α)
  | 0, _ => (.oof, 0)
  | n + 1, i =>
    match (sep i).1 with
    | .ok r _ =>
      if r.length = i.length then (.err (unparseable r), (sep i).2)
      else
        match (p r).1 with
        | .ok r' a =>
          let t := bindC (sepLoopC sep p n r') fun r'' as => (.ok r'' (a :: as), 0)
          (t.1, (sep i).2 + (p r).2 + t.2)
        | .err _ => (.ok i [], (sep i).2 + (p r).2)
        | .fail e => (.fail e, (sep i).2 + (p r).2)
        | .panic => (.panic, (sep i).2 + (p r).2)
        | .oof => (.oof, (sep i).2 + (p r).2)
    | .err _ => (.ok i [], (sep i).2)
    | .fail e => (.fail e, (sep i).2)
    | .panic => (.panic, (sep i).2)
    | .oof => (.oof, (sep i).2)

/-- `nom::multi::separated_list1`, as `sepList1`. -/
def sepList1C {α β : Type} (sep : PC β) (p : PC α) : PC (List α) := fun i =>
  bindC (p i) fun r a => bindC (sepLoopC sep p (r.length + 1) r) fun r' as => (.ok r' (a :: as), 0)

/-- `nom::combinator::all_consuming`, as `allConsuming`. -/
def allConsumingC {α : Type} (p : PC α) : PC α := fun i =>
  bindC (p i) fun r a => if r.length = 0 then (.ok r a, 0) else (.err (unparseable r), 0)

/-- The recursive calls, as `PRec`. -/
structure PCRec where
  type2 : PC Ty2
  group : PC Group

/-- `range_or_control_op`, /repo/src/parser/mod.rs:967-980. -/
def rangeOrControlOpC (r : PCRec) : PC (List Char × Ty2) :=
  pairC (free (alt (tag "...") (alt (tag "..") controlOp))) (precededC (free ws) r.type2)

/-- `type1`, /repo/src/parser/mod.rs:984-1013. -/
def type1C (r : PCRec) : PC Ty1 :=
  pmapC makeType1 (pairC r.type2 (optC (precededC (free ws) (rangeOrControlOpC r))))

/-- `ty`, /repo/src/parser/mod.rs:1017-1024. -/
def tyC (r : PCRec) : PC Ty := sepList1C (free slash) (type1C r)

/-- `generic_arg`, /repo/src/parser/mod.rs:1073-1081. -/
def genericArgC (r : PCRec) : PC (List Ty1) :=
  delimitedC (free (pair (tag "<") ws)) (sepList1C (free (pair (tag ",") ws)) (terminatedC (type1C r) (free ws)))
    (free (tag ">"))

/-- `name_generic`, /repo/src/parser/mod.rs:1085-1096. -/
def nameGenericC (r : PCRec) : PC (String × List Ty1) :=
  pmapC (fun p => (String.ofList p.1, p.2.getD [])) (pairC (free ident) (optC (genericArgC r)))

/-- `grpent_memberkey_tail`, /repo/src/parser/mod.rs:555-563. -/
def memberkeyTailC (r : PCRec) : PC Ty := precededC (free (pair (tag ":") ws)) (tyC r)

/-- The `tuple` of /repo/src/parser/mod.rs:668-673. -/
def arrowTailC (r : PCRec) : PC (Option (List Char) × Ty) :=
  pairC (free (opt (terminated (tag "^") ws))) (precededC (free (tag "=>")) (precededC (free ws) (tyC r)))

/-- Rust's `if let Ok((input, a)) = x { f } else { g }`, as `ifOk`. -/
def ifOkC {α β : Type} (x : PR α × Nat) (f : List Char → α → PR β) (g : PR β × Nat) : PR β × Nat :=
  match x.1 with
  | .ok r a => (f r a, x.2)
  | .err _ => (g.1, x.2 + g.2)
  | .fail _ => (g.1, x.2 + g.2)
  | .panic => (.panic, x.2)
  | .oof => (.oof, x.2)

/-- The end of `grpent_member`, /repo/src/parser/mod.rs:664-704. -/
def memberRestC (r : PCRec) (first : Ty1) : PC GrpEntVal := fun i =>
  ifOkC (arrowTailC r i) (fun i' p => .ok i' (.keyed (.type1 first) p.1.isSome p.2))
    (ifOkC (many0C (precededC (free slash) (type1C r)) i) (fun i' ts => .ok i' (.member (first :: ts)))
      (.err ⟨.unparseable, "grpent_member"⟩, 0))

/-- `grpent_member`, /repo/src/parser/mod.rs:638-705. -/
def grpentMemberC (r : PCRec) : PC GrpEntVal := fun i =>
  bindC (terminatedC (type1C r) (free ws) i) fun i' first =>
    match first with
    | .simple (.value _) | .simple (.typename _ _) =>
      ifOkC (memberkeyTailC r i') (fun i'' t => assembleBasicMember first t i'') (memberRestC r first i')
    | _ => memberRestC r first i'

/-- `grpent_parens`, /repo/src/parser/mod.rs:708-718. -/
def inParensC (r : PCRec) : PC Group :=
  delimitedC (free (chr '(')) (delimitedC (free ws) r.group (free ws)) (free (chr ')'))

/-- `grpent_val`, /repo/src/parser/mod.rs:721-728. -/
def grpentValC (r : PCRec) : PC GrpEntVal :=
  altC (grpentMemberC r)
    (altC (free (pmap (fun s => .groupname (String.ofList s)) ident)) (pmapC .parens (inParensC r)))

/-- `grpent`, /repo/src/parser/mod.rs:786-793. -/
def grpentC (r : PCRec) : PC GrpEnt :=
  pmapC (fun p => .mk p.1 p.2) (pairC (free (opt (terminated occur ws))) (grpentValC r))

/-- `grpchoice`, /repo/src/parser/mod.rs:797-803. -/
def grpchoiceC (r : PCRec) : PC GrpChoice := many0C (terminatedC (grpentC r) (free optcom))

/-- `group`, /repo/src/parser/mod.rs:807-834. -/
def groupC (r : PCRec) : PC Group :=
  pmapC (fun p => p.1 :: p.2)
    (pairC (grpchoiceC r) (many0C (precededC (free (delimited ws (tag "//") ws)) (grpchoiceC r))))

/-- `type2_parens`, /repo/src/parser/mod.rs:838-848. -/
def type2ParensC (r : PCRec) : PC Ty :=
  delimitedC (free (chr '(')) (delimitedC (free ws) (tyC r) (free ws)) (free (chr ')'))

/-- `type2_map`, /repo/src/parser/mod.rs:852-862. -/
def type2MapC (r : PCRec) : PC Group :=
  delimitedC (free (chr '{')) (delimitedC (free ws) r.group (free ws)) (free (chr '}'))

/-- `type2_array`, /repo/src/parser/mod.rs:866-876. -/
def type2ArrayC (r : PCRec) : PC Group :=
  delimitedC (free (chr '[')) (delimitedC (free ws) r.group (free ws)) (free (chr ']'))

/-- The alternatives of `type2`, /repo/src/parser/mod.rs:940-952 with l.880-926. -/
def type2AltsC (x : ParseExt) (r : PCRec) : PC Ty2 :=
  altC (free (pmap .value (value x))) (
  altC (pmapC (fun p => .typename p.1 p.2) (nameGenericC r)) (
  altC (pmapC .parens (type2ParensC r)) (
  altC (pmapC .map (type2MapC r)) (
  altC (pmapC .array (type2ArrayC r)) (
  altC (pmapC (fun p => .unwrap p.1 p.2) (precededC (free (tag "~")) (precededC (free ws) (nameGenericC r)))) (
  altC (pmapC .choiceifyInline (precededC (free (tag "&")) (precededC (free ws) (inParensC r))))
    (pmapC (fun p => .choiceify p.1 p.2) (precededC (free (tag "&")) (precededC (free ws) (nameGenericC r)))))))))) 

/-- `type2`, /repo/src/parser/mod.rs:940-952: this is a call. -/
def type2C (x : ParseExt) (r : PCRec) : PC Ty2 := fun i => ((type2AltsC x r i).1, (type2AltsC x r i).2 + 1)

/-- The parsers with a budget for nested calls, as `parsers`. -/
def parsersC (x : ParseExt) : Nat → PCRec
  | 0 => ⟨fun _ => (.oof, 0), fun _ => (.oof, 0)⟩
  | n + 1 => ⟨type2C x (parsersC x n), groupC (parsersC x n)⟩

/-- The recursive parsers, as `parserRec`. -/
def parserRecC (x : ParseExt) : PCRec where
  type2 i := (parsersC x (2 * i.length + 2)).type2 i
  group i := (parsersC x (2 * i.length + 2)).group i

/-- `rule_val`, /repo/src/parser/mod.rs:1044-1057. -/
def ruleValC (x : ParseExt) : PC RuleVal :=
  precededC (free (tag "=")) (precededC (free ws)
    (altC (pmapC .assignType (tyC (parserRecC x))) (pmapC .assignGroup (grpentC (parserRecC x)))))

/-- `rule`, /repo/src/parser/mod.rs:1099-1114. -/
def ruleC (x : ParseExt) : PC Ast.Rule :=
  pmapC (fun p => ⟨String.ofList p.1.1, (p.1.2.getD []).map String.ofList, p.2⟩)
    (pairC (free (pair ident (opt genericParm))) (precededC (free ws) (ruleValC x)))

/-- `cddl`, /repo/src/parser/mod.rs:1118-1126. -/
def cddlC (x : ParseExt) : PC Ast.Cddl := precededC (free ws) (many1C (terminatedC (ruleC x) (free ws)))

/-- `parse_cddl`, /repo/src/parser/mod.rs:1157-1160. -/
def parseCddlC (x : ParseExt) (s : String) : Res Ast.Cddl × Nat :=
  ((allConsumingC (cddlC x) s.toList).1.toRes, (allConsumingC (cddlC x) s.toList).2)

end Cddl
