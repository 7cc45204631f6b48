import Verif.Props.Equiv
import Verif.Props.Verbose
import Verif.Props.Llm
import Verif.Props.Scripts
import Verif.Props.SplitTuple
import Verif.Props.Tuple
import Verif.Props.Matrix
import Verif.Props.Evidence
import Verif.Props.Cas
import Verif.Props.Numeric
import Verif.Props.Interval
import Verif.Props.TypeEval
import Verif.Props.Wrappers
import Verif.Props.Quiet
import Verif.Props.FinalStage
import Verif.Props.Stages
import Verif.Props.Readings
import Verif.Props.LastStage
import Verif.Props.Clock
import Verif.Props.Commas
import Verif.Props.Degrees
import Verif.Props.Calm
import Verif.Props.AndOr
import Verif.Props.Marks
import Verif.Props.Dollar
import Verif.Props.Member
import Verif.Props.Units
import Verif.Props.UnitWords
import Verif.Props.Mixed
import Verif.Props.Sci
import Verif.Props.Idem
import Verif.Model.Latex2Sympy
import Verif.Model.Lexer
import Verif.Model.Parser
import Verif.Props.L2SNumbers
import Verif.Props.L2SArith
import Verif.Props.L2SArithReal
import Verif.Props.L2SFrame
import Verif.Props.L2SState
import Verif.Props.L2SRows
import Verif.Props.L2SMatrix
import Verif.Props.L2SSizes
import Verif.Props.L2SNames
import Verif.Props.Decimals
import Verif.Props.Merging
import Verif.Props.L2SCalculus
import Verif.Props.Points
import Verif.Props.GrammarBase
import Verif.Props.Reading
import Verif.Props.ReadingLex
import Verif.Props.LexSpec
import Verif.Props.LexTable
import Verif.Props.ReadingParse
import Verif.Props.ReadingMeans
import Verif.Props.ReadingText
import Verif.Props.ReadingEnd
import Verif.Props.ReadingFunctions
import Verif.Props.ReadingCalculus
import Verif.Props.GrammarLocal
import Verif.Props.ReadingApart
import Verif.Props.GrammarNest
import Verif.Props.Balance
import Verif.Props.GrammarDerives
import Verif.Props.GrammarFuel
import Verif.Props.GrammarTrees
import Verif.Props.GrammarText
import Verif.Props.ReadingIntegrals
import Verif.Props.ReadingLists
import Verif.Props.ReadingMatrix
import Verif.Props.L2SEvalAt
import Verif.Props.L2SDeclare
import Verif.Props.Fractions
import Verif.Props.TypedReasons
import Verif.Props.EndToEnd
import Verif.Props.Lists
import Verif.Props.ListsReal
import Verif.Props.MatrixAnswers
import Verif.Props.Unions
import Verif.Props.Meets
import Verif.Props.Kinds
import Verif.Props.Notations
import Verif.Props.Equations
import Verif.Props.Helpers
import Verif.Props.Sets
import Verif.Props.AsciiMath
import Verif.Props.Listener
import Verif.Props.TypeScript
import Verif.Props.Constants
import Verif.Props.Complexes
import Verif.Props.Compounds
import Verif.Props.Bounds
import Verif.Props.Systems
import Verif.Props.PointFormulas
import Verif.Props.Chance
import Verif.Props.Transitive
import Verif.Props.Sources
import Verif.Props.Chains
import Verif.Props.Turned
import Verif.Props.Measures
import Verif.Props.Statements
import Verif.Props.Defined
import Verif.Props.Applied
import Verif.Props.Enclosed
import Verif.Props.Bare
import Verif.Props.Differential
import Verif.Props.Transpose
import Verif.Props.Case
import Verif.Props.Products
import Verif.Props.Thousands
import Verif.Props.Factorials
import Verif.Props.Exponents
import Verif.Props.Higher
import Verif.Props.Inside
import Verif.Props.Calls
import Verif.Props.Several
import Verif.Props.Functions
