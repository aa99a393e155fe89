import Verif.Props.Heap
import Verif.Props.Blocks
import Verif.Props.Hole
import Verif.Props.NextFit
import Verif.Props.LeftBehind
import Verif.Props.Cut
import Verif.Props.Collect
import Verif.Props.Heaps
import Verif.Props.HeapReentrant
import Verif.Props.HeapSeparate
import Verif.Props.Layout
import Verif.Props.Placement
import Verif.Props.Decode
import Verif.Props.File
import Verif.Props.Roundtrip
import Verif.Props.Lookup
import Verif.Props.Hash
import Verif.Props.TwoBits
import Verif.Props.TypeHash
import Verif.Props.CodeHash
import Verif.Props.Finalize
import Verif.Props.Preimage
import Verif.Props.GlobalSign
import Verif.Props.Alloc
import Verif.Spec.Alloc
import Verif.Props.Compiler
import Verif.Props.Threads
import Verif.Props.Blame
import Verif.Props.Size
import Verif.Props.Fault
import Verif.Props.Report
import Verif.Spec.BadNumbers
import Verif.Props.BadRefs
import Verif.Props.BadFuns
import Verif.Props.BadKinds
import Verif.Props.BadOps
import Verif.Props.BadDebug
import Verif.Props.Recorded
import Verif.Props.Text
import Verif.Props.Mask
import Verif.Props.Work
import Verif.Props.Same
import Verif.Props.Requests
import Verif.Props.Profile
import Verif.Props.Unfinished
import Verif.Props.Print
import Verif.Props.Copies
import Verif.Props.Lookups
import Verif.Props.HashWork
import Verif.Props.Renumber
import Verif.Props.Pools
import Verif.Props.Answered
import Verif.Brass.Back
import Verif.Brass.Right
import Verif.Brass.Exact
import Verif.Props.Exact
import Verif.Spec.Writable
import Verif.Props.Reinit
import Verif.Props.Witness
import Verif.Props.HeapWitness
import Verif.Props.DebugText
import Verif.Props.Scan
import Verif.Props.Overflow
