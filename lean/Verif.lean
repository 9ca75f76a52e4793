import Verif.Model.Basic
import Verif.Model.Names
import Verif.Model.Descriptors
import Verif.Model.ConstantPool
import Verif.Model.Bytecode
import Verif.Model.Attributes
import Verif.Model.ClassFile
import Verif.Spec.Encoding
import Verif.Spec.Text
import Verif.Spec.Pool
import Verif.Spec.Bytecode
import Verif.Spec.Attributes
import Verif.Spec.ClassFile
import Verif.Spec.Chains
import Verif.Proofs.Exact
import Verif.Proofs.Names
import Verif.Proofs.Descriptors
import Verif.Proofs.PoolRead
import Verif.Proofs.PoolValid
import Verif.Proofs.PoolRefs
import Verif.Proofs.Insn
import Verif.Proofs.ByteCode
import Verif.Proofs.AttrLeaf
import Verif.Proofs.Annotations
import Verif.Proofs.Attributes
import Verif.Proofs.ClassFile
import Verif.Proofs.Agree
import Verif.Proofs.Tame
import Verif.Proofs.TameCode
import Verif.Proofs.TameAttr
import Verif.Proofs.Chain
import Verif.Proofs.Stop
import Verif.Spec.Run
import Verif.Proofs.Run
import Verif.Proofs.Extend
import Verif.Spec.Cycles
import Verif.Props.Examples
import Verif.Props.Whole
import Verif.Props.SlotCount
import Verif.Props.RichFacts
import Verif.Spec.PoolGraph
import Verif.Props.PoolProps
import Verif.Spec.Iter
import Verif.Props.IterProps
import Verif.Spec.Nested
import Verif.Proofs.Nested
import Verif.Proofs.Front
import Verif.Props.ClassProps
import Verif.Spec.Open
import Verif.Proofs.Open
import Verif.Props.FullFacts
import Verif.Props.FlagProps
import Verif.Proofs.DataUnique
import Verif.Spec.Replace
import Verif.Proofs.Replace
import Verif.Proofs.Resize
import Verif.Props.AttrProps
import Verif.Spec.Frames
import Verif.Props.FrameProps
import Verif.Props.AnnotationProps
import Verif.Spec.Code
import Verif.Props.CodeProps
import Verif.Spec.Strip
import Verif.Props.StripProps
import Verif.Spec.Grammar
import Verif.Props.TextProps
import Verif.Spec.Numbers
import Verif.Props.NumberProps
import Verif.Spec.Strings
import Verif.Props.StringProps
import Verif.Props.ErrorProps
import Verif.Spec.Depth
import Verif.Proofs.Depth
import Verif.Props.DepthProps
import Verif.Model.Capacity
import Verif.Spec.Capacity
import Verif.Props.CapacityProps
import Verif.Spec.Moved
import Verif.Proofs.Moved
import Verif.Props.MovedProps
import Verif.Model.Width
import Verif.Spec.Width
import Verif.Proofs.Width
import Verif.Props.WidthProps
import Verif.Model.Threads
import Verif.Spec.Threads
import Verif.Spec.Alone
import Verif.Proofs.Threads
import Verif.Proofs.Machine
import Verif.Props.ThreadProps
import Verif.Proofs.Alone
import Verif.Props.AloneProps
import Verif.Spec.Prune
import Verif.Props.PruneProps
import Verif.Spec.Panics
import Verif.Proofs.PanicsCode
import Verif.Proofs.Panics
import Verif.Props.PanicProps
import Verif.Spec.Faults
import Verif.Proofs.FaultsBase
import Verif.Proofs.Faults
import Verif.Props.FaultProps
import Verif.Spec.Renumber
import Verif.Proofs.Renumber
import Verif.Props.RenumberProps
import Verif.Spec.Size
import Verif.Proofs.Size
import Verif.Props.SizeProps
import Verif.Spec.Version
import Verif.Props.VersionProps
import Verif.Spec.Tune
import Verif.Proofs.Tune
import Verif.Props.TuneProps
import Verif.Spec.Truncated
import Verif.Props.TruncatedProps
import Verif.Spec.Trail
import Verif.Proofs.TrailBase
import Verif.Proofs.Trail
import Verif.Props.TrailProps
import Verif.Spec.Lost
import Verif.Props.LostProps
import Verif.Proofs.Found
import Verif.Props.PlaceProps
import Verif.Model.Cesu8
import Verif.Spec.Mutf8
import Verif.Proofs.Cesu8
import Verif.Props.Mutf8Props
import Verif.Spec.Format
import Verif.Props.FormatProps
import Verif.Model.Cow
import Verif.Spec.Cow
import Verif.Proofs.Cow
import Verif.Props.CowProps
import Verif.Model.Work
import Verif.Spec.Work
import Verif.Proofs.Work
import Verif.Proofs.WorkBound
import Verif.Proofs.WorkPool
import Verif.Props.WorkProps
import Verif.Model.WorkParse
import Verif.Proofs.WorkParse
import Verif.Proofs.WorkAttributes
import Verif.Proofs.WorkCost
import Verif.Proofs.WorkCode
import Verif.Proofs.WorkCostAttr
import Verif.Proofs.WorkCostClass
import Verif.Proofs.WorkTop
import Verif.Props.WorkParseProps
import Verif.Model.Memory
import Verif.Spec.Memory
import Verif.Proofs.Memory
import Verif.Props.MemoryProps
import Verif.Model.Compare
import Verif.Spec.Compare
import Verif.Props.CompareProps
import Verif.Spec.Static
import Verif.Props.StaticProps
import Verif.Spec.Assemble
import Verif.Props.AssembleProps
import Verif.Spec.Show
import Verif.Props.ShowProps
import Verif.Spec.BytecodeTrail
import Verif.Proofs.BytecodeTrail
import Verif.Props.BytecodeTrailProps
import Verif.Spec.Layout
import Verif.Proofs.Layout
import Verif.Proofs.LayoutUnique
import Verif.Props.LayoutProps
import Verif.Spec.Message
import Verif.Spec.TextMessage
import Verif.Proofs.TextMessage
import Verif.Props.TextMessageProps
import Verif.Proofs.MessageBase
import Verif.Proofs.MessagePool
import Verif.Proofs.MessageEntry
import Verif.Proofs.MessageIndex
import Verif.Proofs.MessageEnd
import Verif.Proofs.Message
import Verif.Props.MessageProps
import Verif.Spec.Errors
import Verif.Spec.Blame
import Verif.Spec.CodeMessage
import Verif.Spec.AttributeMessage
import Verif.Proofs.CodeMessage
import Verif.Proofs.AttributeMessage
import Verif.Props.AttributeMessageProps
import Verif.Proofs.ErrorSize
import Verif.Proofs.ErrorSizeFile
import Verif.Props.ErrorSizeProps
import Verif.Model.Reserve
import Verif.Proofs.Reserve
import Verif.Proofs.ReserveBound
import Verif.Props.ReserveProps
import Verif.Spec.Reserve
import Verif.Proofs.ReserveExact
import Verif.Props.HeldProps
import Verif.Spec.Slots
import Verif.Proofs.Slots
import Verif.Proofs.SlotSame
import Verif.Props.SlotProps
import Verif.Spec.Vary
import Verif.Proofs.Vary
import Verif.Props.VaryProps
import Verif.Model.Caught
import Verif.Spec.Caught
import Verif.Props.CaughtProps
import Verif.Model.Glue
import Verif.Spec.Glue
import Verif.Proofs.Glue
import Verif.Proofs.GlueSize
import Verif.Props.GlueProps
