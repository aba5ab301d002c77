import Verif.Model.Escape
import Verif.Model.Types
import Verif.Model.Value
import Verif.Model.Prog
import Verif.Model.Render
import Verif.Model.Construct
import Verif.Spec.Text
import Verif.Spec.Out
import Verif.Proofs.Escape
import Verif.Proofs.Hoare
import Verif.Proofs.RefineAttr
import Verif.Proofs.RefineTag
import Verif.Proofs.Refine
import Verif.Spec.Build
import Verif.Spec.Finite
import Verif.Spec.Obs
import Verif.Proofs.Split
import Verif.Proofs.Merge
import Verif.Proofs.Only
import Verif.Proofs.Fuel
import Verif.Proofs.Complete
import Verif.Model.Html
import Verif.Spec.Built
import Verif.Spec.Format
import Verif.Spec.Sample
import Verif.Proofs.Built
import Verif.Proofs.Quiet
import Verif.Proofs.Format
import Verif.Proofs.Leaf
import Verif.Props.Escaping
import Verif.Props.Values
import Verif.Spec.Tag
import Verif.Spec.Names
import Verif.Spec.Each
import Verif.Spec.Determined
import Verif.Proofs.Tag
import Verif.Proofs.Element
import Verif.Proofs.Unique
import Verif.Props.Elements
import Verif.Props.Attributes
import Verif.Props.Conditionals
import Verif.Spec.Writers
import Verif.Proofs.Trip
import Verif.Proofs.Frame
import Verif.Proofs.Errors
import Verif.Proofs.Surface
import Verif.Props.Errors
import Verif.Spec.Nesting
import Verif.Spec.Iter
import Verif.Spec.Memory
import Verif.Proofs.Nesting
import Verif.Proofs.Iter
import Verif.Proofs.Items
import Verif.Proofs.Blind
import Verif.Props.Imperative
import Verif.Props.Iteration
import Verif.Props.Memory
import Verif.Props.Document
import Verif.Model.Slice
import Verif.Spec.Slice
import Verif.Proofs.Slice
import Verif.Model.Nbsp
import Verif.Props.Nbsp
import Verif.Model.Library
import Verif.Model.HtmlTables
import Verif.Model.SvgTables
import Verif.Model.HtmxTables
import Verif.Model.CssTables
import Verif.Spec.Library
import Verif.Proofs.Library
import Verif.Props.Library
import Verif.Props.Css
import Verif.Props.AttributeFns
import Verif.Model.Htmx
import Verif.Spec.Htmx
import Verif.Proofs.Htmx
import Verif.Proofs.HtmxText
import Verif.Props.Htmx
import Verif.Model.Get
import Verif.Spec.Get
import Verif.Proofs.Get
import Verif.Props.Get
import Verif.Model.Template
import Verif.Spec.Template
import Verif.Proofs.Template
import Verif.Props.Template
import Verif.Model.Generator
import Verif.Spec.Generator
import Verif.Spec.GenEval
import Verif.Proofs.Generator
import Verif.Proofs.GeneratorLex
import Verif.Proofs.GenTables
import Verif.Proofs.GenEval
import Verif.Proofs.GenUnique
import Verif.Props.Generator
import Verif.Spec.Ends
import Verif.Proofs.Ends
import Verif.Props.Termination
import Verif.Spec.Start
import Verif.Proofs.Start
import Verif.Props.Start
import Verif.Model.Machine
import Verif.Spec.Concurrent
import Verif.Proofs.Uniform
import Verif.Proofs.Machine
import Verif.Props.Concurrent
import Verif.Spec.Tokenizer
import Verif.Spec.Markup
import Verif.Proofs.Markup
import Verif.Spec.Source
import Verif.Proofs.Source
import Verif.Spec.Clean
import Verif.Proofs.Clean
import Verif.Props.Markup
import Verif.Spec.Depends
import Verif.Proofs.Depends
import Verif.Props.Depends
import Verif.Spec.Swap
import Verif.Proofs.Swap
import Verif.Props.Swap
import Verif.Spec.Calls
import Verif.Proofs.Calls
import Verif.Props.Calls
import Verif.Props.Nils
import Verif.Spec.Shape
import Verif.Proofs.Shape
import Verif.Props.Shape
import Verif.Spec.Repeated
import Verif.Props.Repeated
import Verif.Model.Constants
import Verif.Spec.Style
import Verif.Proofs.Style
import Verif.Props.Style
import Verif.Props.Constants
import Verif.Spec.Order
import Verif.Proofs.Order
import Verif.Proofs.OrderPure
import Verif.Props.Order
import Verif.Proofs.Laws
import Verif.Props.Laws
import Verif.Proofs.LastError
import Verif.Spec.Utf8
import Verif.Proofs.Utf8
import Verif.Props.Utf8
import Verif.Model.NodeName
import Verif.Props.NodeName
import Verif.Spec.Tree
import Verif.Proofs.Tree
import Verif.Props.Tree
import Verif.Model.StartSlice
import Verif.Spec.StartSlice
import Verif.Proofs.StartSlice
import Verif.Props.StartSlice
import Verif.Spec.RoundTrip
import Verif.Proofs.RoundTrip
import Verif.Props.RoundTrip
import Verif.Proofs.OwnErrors
import Verif.Props.ParallelTemplate
import Verif.Proofs.OrderComplete
import Verif.Spec.Does
import Verif.Proofs.SwapEffects
import Verif.Props.LawsEffects
import Verif.Model.Panic
import Verif.Spec.Panic
import Verif.Proofs.Panic
import Verif.Props.Panic
import Verif.Spec.AfterError
import Verif.Spec.Bare
import Verif.Proofs.Bare
import Verif.Proofs.AfterError
import Verif.Props.AfterError
import Verif.Spec.GenTokens
import Verif.Proofs.GenTokens
import Verif.Props.GenTokens
import Verif.Conform.Basic
import Verif.Conform.Library
import Verif.Conform.Root
import Verif.Conform.Rest
import Verif.Conform.Readme
import Verif.Model.Base
import Verif.Model.Retain
import Verif.Spec.Retain
import Verif.Proofs.Retain
import Verif.Props.Retain
import Verif.Model.Live
import Verif.Spec.Live
import Verif.Proofs.Live
import Verif.Props.Live
import Verif.Spec.Lines
import Verif.Proofs.Lines
import Verif.Props.Lines
import Verif.Spec.Component
import Verif.Proofs.Component
import Verif.Props.Component
import Verif.Spec.Case
import Verif.Proofs.Case
import Verif.Props.Case
import Verif.Model.Own
import Verif.Spec.Own
import Verif.Proofs.Own
import Verif.Props.Own
import Verif.Spec.OwnElement
import Verif.Proofs.OwnElement
import Verif.Props.OwnElement
import Verif.Spec.OwnWhen
import Verif.Proofs.OwnWhen
import Verif.Props.OwnWhen
import Verif.Proofs.OwnOnce
import Verif.Props.OwnOnce
import Verif.Proofs.OwnOutside
import Verif.Props.OwnOutside
import Verif.Proofs.OwnDropped
import Verif.Props.OwnDropped
import Verif.Spec.HeadersRead
import Verif.Proofs.HeadersRead
import Verif.Props.HeadersRead
import Verif.Conform.Reader
import Verif.Spec.Xml
import Verif.Proofs.Xml
import Verif.Props.Xml
import Verif.Spec.Buffer
import Verif.Proofs.Buffer
import Verif.Props.Buffer
import Verif.Spec.Silence
import Verif.Proofs.Silence
import Verif.Spec.Json
import Verif.Proofs.Json
import Verif.Props.Json
import Verif.Spec.Links
import Verif.Proofs.Links
import Verif.Props.Links
import Verif.Spec.GenComplete
import Verif.Props.GenComplete
import Verif.Spec.Dom
import Verif.Proofs.Dom
import Verif.Spec.Page
import Verif.Proofs.Page
import Verif.Proofs.Checks
import Verif.Props.Dom
import Verif.Spec.Received
import Verif.Proofs.Received
import Verif.Spec.Stands
import Verif.Proofs.Stands
import Verif.Props.Stands
import Verif.Spec.Back
import Verif.Proofs.Back
import Verif.Props.Back
import Verif.Spec.Classes
import Verif.Proofs.Classes
import Verif.Props.Classes
import Verif.Model.Checked
import Verif.Spec.Checked
import Verif.Proofs.Checked
import Verif.Props.Checked
import Verif.Model.Stream
import Verif.Spec.Stream
import Verif.Proofs.Stream
import Verif.Proofs.StreamComplete
import Verif.Props.Stream
import Verif.Spec.StreamErrors
import Verif.Proofs.StreamErrors
import Verif.Proofs.StreamOwn
import Verif.Props.StreamErrors
import Verif.Spec.StreamDoes
import Verif.Proofs.StreamDoes
import Verif.Props.StreamDoes
import Verif.Model.StreamMachine
import Verif.Spec.StreamConcurrent
import Verif.Proofs.StreamMachine
import Verif.Props.StreamConcurrent
import Verif.Spec.StreamFinite
import Verif.Proofs.StreamFinite
import Verif.Props.StreamFinite
import Verif.Spec.StreamPanic
import Verif.Props.StreamPanic
import Verif.Spec.StreamItems
import Verif.Proofs.StreamItems
import Verif.Props.StreamItems
import Verif.Model.StreamTemplate
import Verif.Spec.StreamTemplate
import Verif.Proofs.StreamTemplate
import Verif.Props.StreamTemplate
import Verif.Spec.StreamExchange
import Verif.Proofs.StreamExchange
import Verif.Props.StreamExchange
import Verif.Spec.StreamUtf8
import Verif.Proofs.StreamUtf8
import Verif.Props.StreamUtf8
import Verif.Spec.StreamClean
import Verif.Proofs.StreamClean
import Verif.Props.StreamClean
import Verif.Spec.StreamMade
import Verif.Proofs.StreamMade
import Verif.Props.StreamMade
import Verif.Spec.StreamCleanTemplate
import Verif.Proofs.StreamCleanTemplate
import Verif.Props.StreamCleanTemplate
