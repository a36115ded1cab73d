import Verif.Props.LibcString
import Verif.Props.LibcCType
import Verif.Props.LibcDiv
import Verif.Props.LibcNum
import Verif.Props.Lists
import Verif.Props.Math
import Verif.Props.Vector
import Verif.Props.Alloc
import Verif.Props.String
import Verif.Props.Assoc
import Verif.Props.Hash
import Verif.Props.Gc
import Verif.Props.Schedule
import Verif.Props.Reader
import Verif.Props.ReadEnds
import Verif.Props.Port
import Verif.Props.Eval
import Verif.Props.Collected
import Verif.Props.Apply
import Verif.Props.Control
import Verif.Props.Define
import Verif.Props.Moved
import Verif.Props.Load
import Verif.Props.Boot
import Verif.Props.LibcRead
import Verif.Props.LibcPrintf
import Verif.Props.LibcEnv
import Verif.Props.LibcAlloc
import Verif.Props.LibcSort
import Verif.Props.Library
import Verif.Props.Determinism
import Verif.Props.Scheme
import Verif.Proof.Start
import Verif.Spec.Setup
import Verif.Proof.Init
import Verif.Proof.InitModule
import Verif.Proof.Setup
import Verif.Props.Setup
import Verif.Proof.Sizes
import Verif.Proof.SizesRead
import Verif.Proof.MainRun
import Verif.Props.Main
import Verif.Spec.Values
import Verif.Proof.Values
import Verif.Props.Values
import Verif.Model.CGetopt
import Verif.Spec.Options
import Verif.Proof.Getopt
import Verif.Proof.GetoptLong
import Verif.Props.Getopt
import Verif.Model.CStdio
import Verif.Spec.Stdio
import Verif.Proof.Stdio
import Verif.Props.Stdio
import Verif.Props.X86Defines
import Verif.Props.Mescc
import Verif.Props.MesccText
import Verif.Props.Scanf
import Verif.Props.Exec
import Verif.Props.Directory
import Verif.Props.LibcOut
import Verif.Props.Fopen
import Verif.Props.Stack
import Verif.Props.LibraryMore
import Verif.Props.Process
import Verif.Props.X64
import Verif.Props.X64Run
import Verif.Props.X64Fns
import Verif.Props.X64Ops
import Verif.Props.X64Mem
