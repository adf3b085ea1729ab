import Verif.Props.Time
import Verif.Props.Utf8
import Verif.Props.Color
import Verif.Props.UU
import Verif.Props.Range
import Verif.Props.Doc
import Verif.Props.LineCol
import Verif.Props.Sessions
import Verif.Props.Events
import Verif.Props.Extensions
import Verif.Props.Select
import Verif.Props.Overlap
import Verif.Props.Styles
import Verif.Props.Collision
import Verif.Props.Atlas
import Verif.Props.RenderCaches
import Verif.Props.Dirty
import Verif.Props.FrameCache
import Verif.Props.Search
import Verif.Props.Formats
import Verif.Props.SrtDoc
import Verif.Props.Override
import Verif.Props.Karaoke
import Verif.Props.EventCmd
import Verif.Props.InfoCmd
import Verif.Props.StyleCmd
import Verif.Props.ApplyStyle
import Verif.Props.Handlers
import Verif.Props.Dialogue
import Verif.Props.Lines
import Verif.Props.Script
import Verif.Props.LineNo
import Verif.Props.Media
import Verif.Props.MediaCmd
import Verif.Props.RoundTrip
import Verif.Props.Blend
import Verif.Props.Transform
import Verif.Props.Alignment
import Verif.Props.Segment
import Verif.Props.Lint
import Verif.Props.Stream
import Verif.Props.Wrap
import Verif.Props.Update
import Verif.Props.Incremental
import Verif.Props.Tokenizer
import Verif.Props.TagCmd
import Verif.Props.Query
import Verif.Props.Builders
import Verif.Props.DeltaApply
import Verif.Props.FormatDoc
import Verif.Props.Resolved
import Verif.Props.Drawing
import Verif.Props.Highlight
import Verif.Props.Complete
import Verif.Props.Place
import Verif.Props.Look
import Verif.Props.Effects
import Verif.Props.Sing
import Verif.Props.Stack
import Verif.Props.Index
import Verif.Props.Scope
import Verif.Props.IndexUpdate
import Verif.Props.Sync
import Verif.Props.Batch
import Verif.Props.Blur
import Verif.Props.Paint
import Verif.Props.Warp
import Verif.Props.DocEdit
import Verif.Props.IncEdit
import Verif.Props.Layout
import Verif.Props.TagProc
import Verif.Props.Animation
import Verif.Props.MemPool
import Verif.Props.LineBreaks
import Verif.Props.Fluent
import Verif.Props.InfoOps
import Verif.Props.FontSelect
import Verif.Props.Shape
import Verif.Props.Gpu
import Verif.Props.Raster
import Verif.Props.Cursor
import Verif.Props.Bitmaps
import Verif.Props.SectionExt
import Verif.Props.Clip
import Verif.Props.Lookup
import Verif.Props.Player
import Verif.Props.Analyzer
import Verif.Props.Inspector
import Verif.Props.Analysis
import Verif.Props.Cleanup
import Verif.Props.Checks
import Verif.Props.Frames
import Verif.Props.DeltaCmd
import Verif.Props.Converter
import Verif.Props.FormatReg
import Verif.Props.Generators
import Verif.Props.Compare
import Verif.Props.DebugRender
import Verif.Props.Bench
import Verif.Props.Prepare
import Verif.Props.Markup
import Verif.Props.Bounds
import Verif.Props.Builtins
import Verif.Props.FontLoad
import Verif.Props.BuiltinExt
import Verif.Props.ExportMarkup
import Verif.Props.Plugin
import Verif.Props.EventCmdExact
import Verif.Props.InfoHistory
import Verif.Props.MediaHistory
import Verif.Props.FluentTag
import Verif.Props.ErrorInfo
import Verif.Props.ExtContext
import Verif.Props.Report
import Verif.Props.Tracked
import Verif.Props.TrackedCursor
import Verif.Props.DocPlugins
import Verif.Props.AtPos
import Verif.Props.MediaOps
import Verif.Props.EditorError
import Verif.Props.ErrorTexts
import Verif.Props.Follow
import Verif.Props.DocValid
import Verif.Props.TokenInfo
import Verif.Props.StyleOps
import Verif.Props.LineIn
import Verif.Props.IssueText
import Verif.Props.PerfGate
import Verif.Props.BenchValid
import Verif.Props.FluentTime
import Verif.Props.FluentEffect
import Verif.Props.FluentMerge
