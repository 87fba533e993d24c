import Verif.Model.Parse

/-!
# The parser with a bound on the depth of its recursion

The recursive functions of the parser (/repo/src/parser/mod.rs) all pass through `type2` (l.940-952) or `group` (l.807-834).
`parsers x k` lets calls of these two be nested at most `k` deep; here the rest of the parser is given with such a bound.
-/

namespace Cddl

/-- `rule_val`, /repo/src/parser/mod.rs:1044-1057, with given recursive parsers. -/
def ruleValWith (r : PRec) : P Ast.RuleVal :=
  preceded (tag "=") (preceded ws (alt (pmap .assignType (ty r)) (pmap .assignGroup (grpent r))))

/-- `rule`, /repo/src/parser/mod.rs:1099-1114, with given recursive parsers. -/
def ruleWith (r : PRec) : P Ast.Rule :=
  pmap (fun p => ⟨String.ofList p.1.1, (p.1.2.getD []).map String.ofList, p.2⟩)
    (pair (pair ident (opt genericParm)) (preceded ws (ruleValWith r)))

/-- `cddl`, /repo/src/parser/mod.rs:1118-1126, with given recursive parsers. -/
def cddlWith (r : PRec) : P Ast.Cddl := preceded ws (many1 (terminated (ruleWith r) ws))

/-- `parse_cddl`, /repo/src/parser/mod.rs:1157-1160, when at most `k` calls of `type2` and `group` may be active at a time.  `fuel` means
that a further one was needed. -/
def parseCddlAt (x : ParseExt) (k : Nat) (s : String) : Res Ast.Cddl := (allConsuming (cddlWith (parsers x k)) s.toList).toRes

/-- The characters after which the grammar nests. -/
def opensDeeper (c : Char) : Bool := c == '(' || c == '[' || c == '{' || c == '<'

/-- How many of them a text contains. -/
def openers (s : List Char) : Nat := s.countP opensDeeper

end Cddl
