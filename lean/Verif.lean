import Verif.Props.Names
import Verif.Props.Tree
import Verif.Props.Iter
import Verif.Props.Attrs
import Verif.Props.Remove
import Verif.Props.Copy
import Verif.Props.Storage
import Verif.Props.Tables
import Verif.Props.Writer
import Verif.Props.Text
import Verif.Props.Parse
import Verif.Props.TextExact
import Verif.Props.Select
import Verif.Props.Values
import Verif.Props.Read
import Verif.Props.Targets
import Verif.Props.TextFix
import Verif.Props.TextBack
import Verif.Props.Back
import Verif.Props.Display
import Verif.Props.Protocol
import Verif.Props.Edit
import Verif.Props.World
import Verif.Props.Memory
import Verif.Props.Loop
import Verif.Props.Unwind
import Verif.Props.Exact
import Verif.Props.Sheets
import Verif.Props.Guard
import Verif.Props.UnwindNode
import Verif.Props.Distinct
import Verif.Props.Noise
import Verif.Props.Depth
import Verif.Props.Rounds
import Verif.Props.Picture
import Verif.Props.ParseFail
import Verif.Props.Whole
import Verif.Props.Users
import Verif.Props.Release
import Verif.Props.Nesting
import Verif.Props.Shuffle
import Verif.Props.DepthText
import Verif.Props.Codegen
import Verif.Props.Switch
import Verif.Props.Form
import Verif.Props.Writable
import Verif.Props.TextMode
import Verif.Props.ParseFree
import Verif.Props.Precedence
import Verif.Props.MemoryExact
import Verif.Props.NestingBound
import Verif.Props.Rings
import Verif.Props.Undo
import Verif.Props.Words
import Verif.Props.WordsExact
import Verif.Props.Commute
import Verif.Props.Spots
import Verif.Props.Barred
import Verif.Props.BarredCopy
import Verif.Props.BarredDrain
import Verif.Model.UnwindRemove
import Verif.Spec.UnwindRemove
import Verif.Proof.UnwindRemove
import Verif.Proof.UnwindDrain
import Verif.Proof.Partway
import Verif.Props.UnwindRemove
import Verif.Model.UnwindCopy
import Verif.Spec.UnwindCopy
import Verif.Proof.UnwindCopy
import Verif.Props.UnwindCopy
import Verif.Check.Libs
import Verif.Check.Docs
import Verif.Check.Resave
import Verif.Check.Api
import Verif.Model.XmlOut
import Verif.Spec.XmlText
import Verif.Proof.XmlLex
import Verif.Proof.XmlLex2
import Verif.Proof.XmlRender
import Verif.Proof.XmlBuild
import Verif.Proof.XmlBack
import Verif.Props.XmlText
import Verif.Spec.Spread
import Verif.Proof.Spread
import Verif.Proof.SpreadText
import Verif.Props.Spread
import Verif.Props.BackExact
import Verif.Props.Swap
import Verif.Spec.Settle
import Verif.Proof.Settle
import Verif.Props.Settle
import Verif.Proof.SettleLong
import Verif.Proof.SettleFamily
import Verif.Props.SettleLong
import Verif.Spec.Inline
import Verif.Proof.Inline
import Verif.Props.Inline
import Verif.Spec.Removals
import Verif.Proof.Removals
import Verif.Props.Removals
import Verif.Spec.Overwrite
import Verif.Proof.Overwrite
import Verif.Props.Overwrite
import Verif.Spec.Vanish
import Verif.Proof.Vanish
import Verif.Props.Vanish
import Verif.Proof.UnwindExact
import Verif.Spec.Twice
import Verif.Proof.Twice
import Verif.Props.Twice
import Verif.Spec.Without
import Verif.Proof.Without
import Verif.Props.Without
import Verif.Props.Kinds
import Verif.Spec.Builds
import Verif.Proof.Builds
import Verif.Props.Builds
import Verif.Props.Getters
import Verif.Props.White
import Verif.Props.TextMut
