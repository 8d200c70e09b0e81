import Verif.Base
import Verif.Conformance.Convert
import Verif.Conformance.Lexemes
import Verif.Conformance.Tags
import Verif.Conformance.ToyDict
import Verif.Demo
import Verif.Lemmas.Accuracy
import Verif.Lemmas.AnswerTags
import Verif.Lemmas.Answering
import Verif.Lemmas.Binary64
import Verif.Lemmas.Binary64Sim
import Verif.Lemmas.Bind
import Verif.Lemmas.CaseTables
import Verif.Lemmas.Cls
import Verif.Lemmas.Compile
import Verif.Lemmas.Conc
import Verif.Lemmas.CoreEq
import Verif.Lemmas.Cost
import Verif.Lemmas.Custom
import Verif.Lemmas.Deriv
import Verif.Lemmas.DictCheck
import Verif.Lemmas.Double
import Verif.Lemmas.DoubleSim
import Verif.Lemmas.Evidence
import Verif.Lemmas.Firsts
import Verif.Lemmas.Fuel
import Verif.Lemmas.Groups
import Verif.Lemmas.JsonGrammar
import Verif.Lemmas.JsonText
import Verif.Lemmas.LexTotal
import Verif.Lemmas.Lexeme
import Verif.Lemmas.Normalized
import Verif.Lemmas.Open
import Verif.Lemmas.Outer
import Verif.Lemmas.Predict
import Verif.Lemmas.Prob
import Verif.Lemmas.PyDict
import Verif.Lemmas.RenumLex
import Verif.Lemmas.Renumber
import Verif.Lemmas.Reprod
import Verif.Lemmas.Run
import Verif.Lemmas.Serial
import Verif.Lemmas.Total
import Verif.Model.AddProb
import Verif.Model.Analogy
import Verif.Model.Analyzer
import Verif.Model.Attrs
import Verif.Model.Binary64
import Verif.Model.Caches
import Verif.Model.Case
import Verif.Model.Cli
import Verif.Model.Compare
import Verif.Model.Compile
import Verif.Model.Conc
import Verif.Model.Config
import Verif.Model.Construct
import Verif.Model.Convert
import Verif.Model.ConvertCall
import Verif.Model.Cost
import Verif.Model.Cpython
import Verif.Model.CpythonCase
import Verif.Model.CpythonTokens
import Verif.Model.Cyr
import Verif.Model.DawgKeys
import Verif.Model.Dbl
import Verif.Model.Dict
import Verif.Model.Double
import Verif.Model.Env
import Verif.Model.Ext
import Verif.Model.Format
import Verif.Model.Inflect
import Verif.Model.Interp
import Verif.Model.JsonText
import Verif.Model.LangData
import Verif.Model.Main
import Verif.Model.Numeral
import Verif.Model.Objects
import Verif.Model.OpenUnits
import Verif.Model.Parse
import Verif.Model.Preprocess
import Verif.Model.Prob
import Verif.Model.ProbDbl
import Verif.Model.Results
import Verif.Model.Shapes
import Verif.Model.Storage
import Verif.Model.Stream
import Verif.Model.Tag
import Verif.Model.TagInit
import Verif.Model.Tokens
import Verif.Model.Typed
import Verif.Model.UnicodeCase
import Verif.Model.UnicodeData
import Verif.Model.UnicodeWord
import Verif.Model.Units
import Verif.Model.Utils
import Verif.Model.Warn
import Verif.Model.Xml
import Verif.Props.C01
import Verif.Props.C01b
import Verif.Props.C02
import Verif.Props.C03
import Verif.Props.C04
import Verif.Props.C05
import Verif.Props.C06
import Verif.Props.C07
import Verif.Props.C08
import Verif.Props.C08b
import Verif.Props.C09
import Verif.Props.C10
import Verif.Props.C100
import Verif.Props.C101
import Verif.Props.C102
import Verif.Props.C103
import Verif.Props.C104
import Verif.Props.C105
import Verif.Props.C106
import Verif.Props.C107
import Verif.Props.C108
import Verif.Props.C109
import Verif.Props.C109b
import Verif.Props.C11
import Verif.Props.C110
import Verif.Props.C111
import Verif.Props.C112
import Verif.Props.C113
import Verif.Props.C114
import Verif.Props.C115
import Verif.Props.C116
import Verif.Props.C13
import Verif.Props.C20
import Verif.Props.C21
import Verif.Props.C22
import Verif.Props.C23
import Verif.Props.C24
import Verif.Props.C25
import Verif.Props.C26
import Verif.Props.C28
import Verif.Props.C30
import Verif.Props.C31
import Verif.Props.C32
import Verif.Props.C33
import Verif.Props.C33b
import Verif.Props.C34
import Verif.Props.C36
import Verif.Props.C37
import Verif.Props.C39
import Verif.Props.C40
import Verif.Props.C41
import Verif.Props.C42
import Verif.Props.C43
import Verif.Props.C44
import Verif.Props.C45
import Verif.Props.C47
import Verif.Props.C48
import Verif.Props.C49
import Verif.Props.C49b
import Verif.Props.C50
import Verif.Props.C51
import Verif.Props.C52
import Verif.Props.C53
import Verif.Props.C55
import Verif.Props.C56
import Verif.Props.C58
import Verif.Props.C59
import Verif.Props.C60
import Verif.Props.C61
import Verif.Props.C62
import Verif.Props.C63
import Verif.Props.C64
import Verif.Props.C65
import Verif.Props.C66
import Verif.Props.C67
import Verif.Props.C68
import Verif.Props.C69
import Verif.Props.C70
import Verif.Props.C71
import Verif.Props.C72
import Verif.Props.C73
import Verif.Props.C74
import Verif.Props.C75
import Verif.Props.C76
import Verif.Props.C77
import Verif.Props.C78
import Verif.Props.C79
import Verif.Props.C80
import Verif.Props.C81
import Verif.Props.C82
import Verif.Props.C83
import Verif.Props.C84
import Verif.Props.C85
import Verif.Props.C86
import Verif.Props.C87
import Verif.Props.C88
import Verif.Props.C89
import Verif.Props.C90
import Verif.Props.C91
import Verif.Props.C92
import Verif.Props.C93
import Verif.Props.C94
import Verif.Props.C95
import Verif.Props.C96
import Verif.Props.C97
import Verif.Props.C98
import Verif.Props.C98b
import Verif.Props.C99
import Verif.Spec.Analogy
import Verif.Spec.Attributes
import Verif.Spec.Custom
import Verif.Spec.Default
import Verif.Spec.Evidence
import Verif.Spec.Firsts
import Verif.Spec.Fits
import Verif.Spec.Groups
import Verif.Spec.JsonGrammar
import Verif.Spec.JsonValue
import Verif.Spec.Number
import Verif.Spec.Open
import Verif.Spec.Order
import Verif.Spec.Paradigm
import Verif.Spec.Peel
import Verif.Spec.Predict
import Verif.Spec.Printed
import Verif.Spec.Related
import Verif.Spec.Rules
import Verif.Spec.Scores
import Verif.Spec.Spells
import Verif.Spec.Stacks
