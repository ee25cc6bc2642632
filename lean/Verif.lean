import Verif.Model.Schema
import Verif.Model.Api
import Verif.Spec.Stream
import Verif.Spec.Observe
import Verif.Proof.WireDec
import Verif.Proof.BufferModels
import Verif.Proof.Presence
import Verif.Proof.DecMessage
import Verif.Proof.SpecMerge
import Verif.Proof.Fits
import Verif.Proof.Determinism
import Verif.Proof.Safety
import Verif.Proof.Reach
import Verif.Props.Wire
import Verif.Props.Buffers
import Verif.Props.Encode
import Verif.Props.Exact
import Verif.Props.HeldSlot
import Verif.Props.Decode
import Verif.Props.Declarations
import Verif.Props.Safety
import Verif.Proof.SlotRecord
import Verif.Proof.Member
import Verif.Proof.ReadSim
import Verif.Proof.Fuel
import Verif.Proof.Record
import Verif.Proof.Truncate
import Verif.Props.Malformed
import Verif.Model.Accessors
import Verif.Proof.Accessors
import Verif.Proof.History
import Verif.Props.Objects
import Verif.Spec.Bounded
import Verif.Proof.Bounded
import Verif.Props.Containers
import Verif.Spec.Shelf
import Verif.Proof.Shelf
import Verif.Props.Shelf
import Verif.Spec.Groups
import Verif.Proof.Groups
import Verif.Props.Groups
import Verif.Spec.Beyond
import Verif.Proof.Beyond
import Verif.Props.Beyond
import Verif.Spec.Text
import Verif.Model.ToString
import Verif.Spec.Shown
import Verif.Proof.Text
import Verif.Props.Text
import Verif.Props.TextAll
import Verif.Spec.Descriptor
import Verif.Model.GenMessage
import Verif.Spec.Placed
import Verif.Proof.GenMessage
import Verif.Props.Generator
import Verif.Spec.Header
import Verif.Model.GenOrder
import Verif.Proof.Toposort
import Verif.Proof.GenOrder
import Verif.Proof.HeaderDec
import Verif.Proof.GenAccept
import Verif.Props.Order
import Verif.Spec.Templates
import Verif.Model.GenTemplates
import Verif.Proof.GenTemplates
import Verif.Props.Templates
import Verif.Spec.Syntax
import Verif.Proof.Syntax
import Verif.Proof.SyntaxEnc
import Verif.Props.Syntax
import Verif.Spec.Held
import Verif.Proof.Blank
import Verif.Proof.Held
import Verif.Proof.HeldMerge
import Verif.Props.Held
import Verif.Spec.Number
import Verif.Model.Compare
import Verif.Proof.Compare
import Verif.Props.Compare
import Verif.Spec.Older
import Verif.Proof.Older
import Verif.Props.Evolution
import Verif.Spec.Compatible
import Verif.Props.Compatible
import Verif.Spec.MaxSize
import Verif.Proof.MaxSize
import Verif.Props.Size
import Verif.Spec.Standard
import Verif.Spec.Parse
import Verif.Proof.Standard
import Verif.Proof.Refused
import Verif.Props.Interop
import Verif.Proof.Cursor
import Verif.Proof.Parse
import Verif.Proof.ParseTotal
import Verif.Props.Parse
import Verif.Model.Alias
import Verif.Spec.Alias
import Verif.Proof.Alias
import Verif.Props.Alias
import Verif.Spec.Names
import Verif.Model.GenClass
import Verif.Proof.GenSlots
import Verif.Proof.GenUnions
import Verif.Proof.GenNames
import Verif.Proof.GenFields
import Verif.Proof.GenOneofs
import Verif.Proof.GenRefine
import Verif.Proof.GenNaming
import Verif.Proof.GenProper
import Verif.Proof.GenAccess
import Verif.Proof.Parts
import Verif.Spec.Served
import Verif.Proof.GenServed
import Verif.Proof.GenMade
import Verif.Proof.GenNumbers
import Verif.Proof.GenDecide
import Verif.Props.Rendered
import Verif.Spec.Lookup
import Verif.Model.GenTypes
import Verif.Proof.Lookup
import Verif.Props.Lookup
import Verif.Spec.Files
import Verif.Model.GenFiles
import Verif.Proof.Files
import Verif.Props.Files
import Verif.Spec.Instance
import Verif.Model.GenInstance
import Verif.Proof.GenInstance
import Verif.Props.Instance
import Verif.Props.Copies
import Verif.Spec.Json
import Verif.Proof.Json
import Verif.Proof.JsonOnly
import Verif.Proof.JsonSafe
import Verif.Proof.Made
import Verif.Spec.Made
import Verif.Spec.Places
import Verif.Proof.Places
import Verif.Proof.TextPlaces
import Verif.Props.Json
import Verif.Props.JsonSafe
import Verif.Props.Values
import Verif.Spec.Request
import Verif.Model.GenRequest
import Verif.Proof.GenRequest
import Verif.Props.Request
import Verif.Model.GenShow
import Verif.Proof.GenShow
import Verif.Spec.Named
import Verif.Proof.JsonMembers
import Verif.Props.Shown
import Verif.Model.Kept
import Verif.Proof.Kept
import Verif.Props.Kept
import Verif.Model.TemplateText
import Verif.Model.Jinja
import Verif.Model.TemplateNodes
import Verif.Model.Render
import Verif.Model.Lexer
import Verif.Model.Header
import Verif.Spec.HeaderText
import Verif.Spec.HeaderOf
import Verif.Spec.HeaderChars
import Verif.Proof.KernelRfl
import Verif.Proof.HeaderFields
import Verif.Proof.HeaderLex
import Verif.Proof.HeaderClass
import Verif.Proof.HeaderMessage
import Verif.Proof.HeaderErase
import Verif.Proof.HeaderChars
import Verif.Proof.HeaderGood
import Verif.Proof.HeaderEnum
import Verif.Proof.HeaderFile
import Verif.Model.GenText
import Verif.Spec.HeaderRequest
import Verif.Proof.HeaderSpell
import Verif.Proof.HeaderRequest
import Verif.Props.Header
import Verif.Model.WireFields
import Verif.Spec.HandFields
import Verif.Proof.HandFields
import Verif.Props.Hand
import Verif.Spec.Lost
import Verif.Proof.Lost
import Verif.Proof.ParseRecords
import Verif.Proof.LostParse
import Verif.Proof.PackedSlot
import Verif.Props.Cut
import Verif.Spec.Upto
import Verif.Proof.Upto
import Verif.Props.Partial
import Verif.Proof.LoopBound
import Verif.Spec.Link
import Verif.Proof.Link
import Verif.Props.Link
import Verif.Proof.Bisim
import Verif.Props.LinkVersions
import Verif.Spec.Without
import Verif.Props.Zero
import Verif.Proof.OkOrFull
import Verif.Proof.Lower
import Verif.Proof.Wide
import Verif.Props.TooLarge
import Verif.Model.Framed
import Verif.Spec.Framed
import Verif.Props.Framed
import Verif.Spec.Evolved
import Verif.Spec.Moved
import Verif.Spec.Reordered
import Verif.Proof.Evolved
import Verif.Proof.Moved
import Verif.Proof.Reordered
import Verif.Proof.AnyOrder
import Verif.Props.ProtoVersions
import Verif.Props.FieldOrder
import Verif.Props.AnyOrder
import Verif.Proof.PassedOn
import Verif.Props.PassedOn
import Verif.Props.FramedVersions
import Verif.Props.Spared
import Verif.Props.OwnType
import Verif.Props.MemberTypes
import Verif.Props.HeaderEnums
import Verif.Proof.FloatQuotient
import Verif.Props.Leftovers
import Verif.Props.LeftoverArrays
import Verif.Props.Refused
import Verif.Props.Never
import Verif.Props.ImplicitZero
import Verif.Props.NoRoom
import Verif.Props.ShelfNever
import Verif.Props.Changes
import Verif.Props.Capacities
