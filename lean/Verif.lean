import Verif.Basic.Text
import Verif.Model.Literal
import Verif.Model.Tokenizer
import Verif.Lemmas.Tokenizer
import Verif.Model.Parser
import Verif.Lemmas.Lexing
import Verif.Lemmas.ParserList
import Verif.Lemmas.Grammar
import Verif.Model.Printing
import Verif.Spec.CppString
import Verif.Props.Parsing
import Verif.Lemmas.Printing
import Verif.Props.Printing
import Verif.Model.Identifier
import Verif.Spec.Identifier
import Verif.Lemmas.Identifier
import Verif.Lemmas.Discriminate
import Verif.Props.Identifiers
import Verif.Model.LiteralHeap
import Verif.Spec.ValueStore
import Verif.Lemmas.LiteralHeap
import Verif.Props.LiteralHeap
import Verif.Model.Decl
import Verif.Model.Attrs
import Verif.Model.Storage
import Verif.Spec.Annotations
import Verif.Lemmas.Annotations
import Verif.Lemmas.Dispatch
import Verif.Lemmas.Follows
import Verif.Lemmas.Follows2
import Verif.Lemmas.Follows3
import Verif.Lemmas.Storage
import Verif.Lemmas.AnnotationSeq
import Verif.Lemmas.Insert
import Verif.Props.Annotations
import Verif.Model.Params
import Verif.Spec.Functions
import Verif.Lemmas.FunctionAttrs
import Verif.Lemmas.Params
import Verif.Props.Functions
import Verif.Model.Ast
import Verif.Model.Collector
import Verif.Model.Graph
import Verif.Model.Dfs
import Verif.Model.Processing
import Verif.Spec.Ast
import Verif.Spec.Graph
import Verif.Lemmas.Collector
import Verif.Lemmas.CollectorRun
import Verif.Lemmas.Builder
import Verif.Lemmas.BuiltGraph
import Verif.Lemmas.Dfs
import Verif.Lemmas.Visibility
import Verif.Props.Graph
import Verif.Spec.Visibility
import Verif.Lemmas.Forest
import Verif.Lemmas.Processing
import Verif.Lemmas.Pruning
import Verif.Props.Processing
import Verif.Props.Sorting
import Verif.Props.Inlining
import Verif.Model.Operators
import Verif.Model.Exposer
import Verif.Model.Module
import Verif.Spec.Python
import Verif.Props.Operators
import Verif.Spec.Exposer
import Verif.Lemmas.DiagKinds
import Verif.Lemmas.Exposer
import Verif.Lemmas.Properties
import Verif.Lemmas.DeclOutput
import Verif.Props.Exposer
import Verif.Spec.Module
import Verif.Lemmas.Module
import Verif.Props.Module
import Verif.Lemmas.Objects
import Verif.Props.Objects
import Verif.Props.ModuleExamples
import Verif.Model.Adjusters
import Verif.Spec.CommandLine
import Verif.Lemmas.CommandLine
import Verif.Props.CommandLine
import Verif.Model.Templates
import Verif.Spec.Templates
import Verif.Lemmas.Templates
import Verif.Props.Templates
import Verif.Model.Pragmas
import Verif.Spec.Pragmas
import Verif.Props.Pragmas
import Verif.Model.Path
import Verif.Model.Tool
import Verif.Spec.Path
import Verif.Spec.Tool
import Verif.Lemmas.DfsFuel
import Verif.Props.Path
import Verif.Props.Tool
import Verif.Props.ToolExamples
import Verif.Spec.ClassOperators
import Verif.Props.ClassOperators
import Verif.Spec.Import
import Verif.Lemmas.Import
import Verif.Props.Import
import Verif.Model.DefaultArgument
import Verif.Spec.DefaultArgument
import Verif.Props.DefaultArgument
import Verif.Model.Inspect
import Verif.Props.Inspect
import Verif.Spec.Code
import Verif.Spec.CodeOf
import Verif.Lemmas.Code
import Verif.Lemmas.CodeStmt
import Verif.Lemmas.CodeFile
import Verif.Lemmas.CodeTexts
import Verif.Props.Code
import Verif.Spec.Signature
import Verif.Lemmas.Signature
import Verif.Props.Signature
import Verif.Spec.Settings
import Verif.Lemmas.Settings
import Verif.Props.Settings
import Verif.Spec.Introducer
import Verif.Props.Introducer
import Verif.Spec.Run
import Verif.Props.Run
import Verif.Model.Macro
import Verif.Spec.Macro
import Verif.Props.Macro
import Verif.Spec.Members
import Verif.Props.Members
import Verif.Spec.Success
import Verif.Props.Success
import Verif.Spec.Names
import Verif.Props.Names
import Verif.Spec.Contents
import Verif.Spec.Distinct
import Verif.Props.Contents
import Verif.Props.Distinct
import Verif.Spec.Reproducible
import Verif.Props.Reproducible
import Verif.Model.Defaults
import Verif.Spec.Defaults
import Verif.Props.Defaults
import Verif.Model.Messages
import Verif.Spec.Reasons
import Verif.Spec.Messages
import Verif.Lemmas.ViablePrefix
import Verif.Lemmas.Said
import Verif.Lemmas.SourceReasons
import Verif.Lemmas.ModuleReasons
import Verif.Props.Reasons
import Verif.Spec.Additions
import Verif.Lemmas.Additions
import Verif.Lemmas.AdditionsEmit
import Verif.Lemmas.AdditionsRun
import Verif.Props.Additions
import Verif.Spec.Modules
import Verif.Lemmas.Modules
import Verif.Props.Modules
import Verif.Spec.Call
import Verif.Lemmas.Call
import Verif.Props.Call
import Verif.Spec.Split
import Verif.Props.Split
import Verif.Model.Options
import Verif.Spec.Options
import Verif.Props.Options
import Verif.Model.Build
import Verif.Spec.Build
import Verif.Props.Build
import Verif.Model.Command
import Verif.Spec.Command
import Verif.Lemmas.Command
import Verif.Props.Command
import Verif.Spec.Reannotate
import Verif.Lemmas.Reannotate
import Verif.Lemmas.ReannotateRun
import Verif.Lemmas.ReannotateEmit
import Verif.Props.Reannotate
import Verif.Model.Main
import Verif.Spec.Main
import Verif.Props.Main
import Verif.Props.Verbose
import Verif.Spec.Interchange
import Verif.Lemmas.Respell
import Verif.Lemmas.Steady
import Verif.Lemmas.Commute
import Verif.Lemmas.Interchange
import Verif.Props.Respell
import Verif.Spec.ModuleName
import Verif.Props.ModuleName
import Verif.Spec.Layout
import Verif.Lemmas.Layout
import Verif.Props.Layout
import Verif.Spec.Usable
import Verif.Lemmas.Usable
import Verif.Props.Usable
import Verif.Spec.OptIn
import Verif.Props.OptIn
import Verif.Spec.Subclass
import Verif.Props.Subclass
import Verif.Props.Lookup
import Verif.Model.Preprocessor
import Verif.Spec.Preprocessor
import Verif.Lemmas.Preprocessor
import Verif.Props.Preprocessor
import Verif.Spec.Source
import Verif.Lemmas.Source
import Verif.Props.Source
import Verif.Spec.Holder
import Verif.Props.Holder
import Verif.Spec.Mro
import Verif.Lemmas.Mro
import Verif.Props.Mro
import Verif.Spec.Convert
import Verif.Props.Convert
import Verif.Spec.Working
import Verif.Props.Working
import Verif.Model.Debug
import Verif.Spec.Debug
import Verif.Props.Debug
import Verif.Spec.Evaluate
import Verif.Props.Evaluate
import Verif.Spec.Access
import Verif.Props.Access
import Verif.Lemmas.SameAttrs
import Verif.Props.Implicit
import Verif.Props.Variadic
