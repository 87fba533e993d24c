import Verif.Model.Api
import Verif.Model.Ast
import Verif.Model.Bare
import Verif.Model.Basic
import Verif.Model.Calls
import Verif.Model.Convert
import Verif.Model.Cost
import Verif.Model.Display
import Verif.Model.Flatten
import Verif.Model.Ivt
import Verif.Model.Nom
import Verif.Model.Parse
import Verif.Model.Validate
import Verif.Model.Value
import Verif.Proofs.Akin
import Verif.Proofs.Alike
import Verif.Proofs.AlikeText
import Verif.Proofs.Alphabet
import Verif.Proofs.Asked
import Verif.Proofs.AtLeast
import Verif.Proofs.AtMost
import Verif.Proofs.Balanced
import Verif.Proofs.Bare
import Verif.Proofs.BareReturns
import Verif.Proofs.BareYields
import Verif.Proofs.Blame
import Verif.Proofs.Bytes
import Verif.Proofs.Calls
import Verif.Proofs.Cat
import Verif.Proofs.CatAll
import Verif.Proofs.Collect
import Verif.Proofs.Cong
import Verif.Proofs.Cost
import Verif.Proofs.Counted
import Verif.Proofs.CountedParse
import Verif.Proofs.Depth
import Verif.Proofs.Endless
import Verif.Proofs.Expand
import Verif.Proofs.Fatal
import Verif.Proofs.FatalKeys
import Verif.Proofs.Field
import Verif.Proofs.Filled
import Verif.Proofs.FlatErr
import Verif.Proofs.FlatOps
import Verif.Proofs.FlatTable
import Verif.Proofs.FlatTree
import Verif.Proofs.Flatten
import Verif.Proofs.FlattenError
import Verif.Proofs.Float
import Verif.Proofs.Frame
import Verif.Proofs.Frugal
import Verif.Proofs.Gap
import Verif.Proofs.GapAll
import Verif.Proofs.GapTok
import Verif.Proofs.Guard
import Verif.Proofs.Inline
import Verif.Proofs.Join
import Verif.Proofs.JoinAll
import Verif.Proofs.Kinds
import Verif.Proofs.Level
import Verif.Proofs.Limit
import Verif.Proofs.Linear
import Verif.Proofs.Lively
import Verif.Proofs.Loops
import Verif.Proofs.Malformed
import Verif.Proofs.Message
import Verif.Proofs.Nesting
import Verif.Proofs.NoAny
import Verif.Proofs.Nom
import Verif.Proofs.Notation
import Verif.Proofs.Order
import Verif.Proofs.Own
import Verif.Proofs.ParseDepth
import Verif.Proofs.ParseFull
import Verif.Proofs.ParseImage
import Verif.Proofs.ParseImage2
import Verif.Proofs.ParseMono
import Verif.Proofs.ParseRun
import Verif.Proofs.ParseRunAll
import Verif.Proofs.ParseRunGroup
import Verif.Proofs.ParseRunHead
import Verif.Proofs.ParseRunTok
import Verif.Proofs.ParseSlice
import Verif.Proofs.ParseSound
import Verif.Proofs.ParseTok
import Verif.Proofs.Predict
import Verif.Proofs.PredictCalm
import Verif.Proofs.PredictLeaf
import Verif.Proofs.PredictMain
import Verif.Proofs.Predictive
import Verif.Proofs.Print
import Verif.Proofs.Reach
import Verif.Proofs.Reads
import Verif.Proofs.Removable
import Verif.Proofs.Rename
import Verif.Proofs.Reword
import Verif.Proofs.RewordTree
import Verif.Proofs.Safe
import Verif.Proofs.Same
import Verif.Proofs.SatInv
import Verif.Proofs.Sim
import Verif.Proofs.Single
import Verif.Proofs.Sound
import Verif.Proofs.SoundLeaf
import Verif.Proofs.SoundMain
import Verif.Proofs.SoundRec
import Verif.Proofs.Stands
import Verif.Proofs.Takes
import Verif.Proofs.Term
import Verif.Proofs.TextError
import Verif.Proofs.TextSize
import Verif.Proofs.Tidy
import Verif.Proofs.TidyGuard
import Verif.Proofs.Tries
import Verif.Proofs.Twice
import Verif.Proofs.Undo
import Verif.Proofs.Undoable
import Verif.Proofs.Uses
import Verif.Proofs.VMap
import Verif.Proofs.ValueOrder
import Verif.Proofs.Wider
import Verif.Proofs.WriteOut
import Verif.Props.C01
import Verif.Props.C02
import Verif.Props.C03
import Verif.Props.C04
import Verif.Props.C05
import Verif.Props.C06
import Verif.Props.C07
import Verif.Props.C08
import Verif.Props.C09
import Verif.Props.C10
import Verif.Props.C11
import Verif.Props.C12
import Verif.Props.C13
import Verif.Props.C14
import Verif.Props.C15
import Verif.Props.C15Text
import Verif.Props.C16
import Verif.Props.C17
import Verif.Props.C17Alt
import Verif.Props.C18
import Verif.Props.C19
import Verif.Props.C20
import Verif.Props.C21
import Verif.Props.C22
import Verif.Props.C23
import Verif.Props.C24
import Verif.Props.C25
import Verif.Props.C26
import Verif.Props.C27
import Verif.Props.C28
import Verif.Props.C29
import Verif.Props.C30
import Verif.Props.C31
import Verif.Props.C32
import Verif.Props.C33
import Verif.Props.C33Map
import Verif.Props.C34
import Verif.Props.C35
import Verif.Props.C36
import Verif.Props.C37
import Verif.Props.C38
import Verif.Props.C39
import Verif.Props.C40
import Verif.Props.C41
import Verif.Props.C42
import Verif.Props.C43
import Verif.Props.C44
import Verif.Props.C45
import Verif.Props.C46
import Verif.Props.C47
import Verif.Props.C48
import Verif.Props.C49
import Verif.Props.C50
import Verif.Props.C51
import Verif.Props.C52
import Verif.Props.C53
import Verif.Props.C54
import Verif.Props.C55
import Verif.Props.C56
import Verif.Props.C57
import Verif.Props.C58
import Verif.Props.C59
import Verif.Props.C60
import Verif.Props.C61
import Verif.Props.C62
import Verif.Props.C63
import Verif.Props.C64
import Verif.Props.C65
import Verif.Props.C66
import Verif.Props.C66Counted
import Verif.Props.C67
import Verif.Props.C68
import Verif.Props.C69
import Verif.Props.C69Counted
import Verif.Props.C69Square
import Verif.Props.C70
import Verif.Props.C71
import Verif.Props.C72
import Verif.Props.C73
import Verif.Props.C74
import Verif.Props.C75
import Verif.Props.C76
import Verif.Props.C77
import Verif.Props.C78
import Verif.Props.C79
import Verif.Props.C80
import Verif.Props.C81
import Verif.Props.C82
import Verif.Props.C83
import Verif.Props.C84
import Verif.Props.C85
import Verif.Props.C86
import Verif.Props.C87
import Verif.Props.C88
import Verif.Props.C89
import Verif.Props.C90
import Verif.Props.C91
import Verif.Props.C92
import Verif.Spec.Akin
import Verif.Spec.Alike
import Verif.Spec.All2
import Verif.Spec.Alphabet
import Verif.Spec.Asked
import Verif.Spec.AtMost
import Verif.Spec.Blame
import Verif.Spec.Brackets
import Verif.Spec.Choiceify
import Verif.Spec.Cong
import Verif.Spec.Convert
import Verif.Spec.Counted
import Verif.Spec.CountedParse
import Verif.Spec.Demo
import Verif.Spec.Endless
import Verif.Spec.Entry
import Verif.Spec.Expand
import Verif.Spec.Fault
import Verif.Spec.Field
import Verif.Spec.Float
import Verif.Spec.Frugal
import Verif.Spec.Grammar
import Verif.Spec.Hopeless
import Verif.Spec.KeyReach
import Verif.Spec.Keys
import Verif.Spec.Kinds
import Verif.Spec.Lively
import Verif.Spec.Malformed
import Verif.Spec.Message
import Verif.Spec.NoAny
import Verif.Spec.NotJson
import Verif.Spec.Notation
import Verif.Spec.Outside
import Verif.Spec.Own
import Verif.Spec.ParseDepth
import Verif.Spec.Predict
import Verif.Spec.Predictive
import Verif.Spec.Print
import Verif.Spec.Reads
import Verif.Spec.Removable
import Verif.Spec.Rename
import Verif.Spec.Reword
import Verif.Spec.RewordTree
import Verif.Spec.Rollback
import Verif.Spec.Sat
import Verif.Spec.Single
import Verif.Spec.Size
import Verif.Spec.Stack
import Verif.Spec.Stages
import Verif.Spec.Stands
import Verif.Spec.Syntax
import Verif.Spec.SyntaxError
import Verif.Spec.Takes
import Verif.Spec.Tidy
import Verif.Spec.TidyCheck
import Verif.Spec.Tries
import Verif.Spec.Twice
import Verif.Spec.Undoable
import Verif.Spec.Uses
import Verif.Spec.ValueOrder
import Verif.Spec.Verdict
import Verif.Spec.Wider
import Verif.Spec.WriteOut
import Verif.Tests.Cbor
import Verif.Tests.Common
import Verif.Tests.Docs
import Verif.Tests.Flatten
import Verif.Tests.Json
import Verif.Tests.Parser
