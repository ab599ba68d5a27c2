import Verif.Decode.Props
import Verif.Decode.Reserved
import Verif.IR.PcOffset
import Verif.RV64.FpProps
import Verif.RegFile.Props
import Verif.Lift.Props
import Verif.Lift.Relift
import Verif.RegFile.Known
import Verif.Lift.FillPhisProps
import Verif.Lift.Examples
import Verif.X86.Props
import Verif.A64.SimdLanes
import Verif.A64.SimdRegs
import Verif.A64.SimdArith
import Verif.A64.SimdPerm
import Verif.A64.SimdMem
import Verif.A64.Props
import Verif.A64.SimdProps
import Verif.A64.FpuProps
import Verif.CpuStruct.Props
import Verif.CpuStruct.Public
import Verif.CpuStruct.Sptr
import Verif.Config.Props
import Verif.Config.Defaults
import Verif.Lift.Drop
import Verif.Lift.A64
import Verif.Lift.ExamplesA64
import Verif.X86.SseProps
import Verif.X86.All
import Verif.X86.Exact
import Verif.X86.SseExact
import Verif.X86.Reloc
import Verif.X86.System
import Verif.X86.Address
import Verif.RV64.Csr
import Verif.A64.System
import Verif.Lift.X86
import Verif.Lift.ExamplesX86
import Verif.RV64.FpExec
import Verif.Lift.RV64Fp
import Verif.Lift.ExamplesRV64Fp
import Verif.Lift.RV64Call
import Verif.Lift.ExamplesRV64Call
import Verif.Lift.Override
import Verif.Lift.OverrideArch
import Verif.Lift.ExamplesOverride
import Verif.Lift.Chain
import Verif.Lift.Returns
import Verif.Lift.ChainArch
import Verif.Lift.ExamplesChain
import Verif.RV64.Exact
import Verif.RV64.Reloc
import Verif.A64.Exact
import Verif.A64.Reloc
import Verif.Conc.Model
import Verif.Conc.Lemmas
import Verif.Conc.RV64
import Verif.Conc.RV64Link
import Verif.Conc.Harts
import Verif.Conc.RV64Props
import Verif.Conc.RV64Counter
import Verif.Conc.RV64LrSc
import Verif.Conc.X86
import Verif.Conc.X86Link
import Verif.Conc.X86Run
import Verif.Conc.X86Props
import Verif.Conc.X86Counter
import Verif.Conc.A64
import Verif.Conc.A64Link
import Verif.Conc.A64Run
import Verif.Conc.A64Cpus
import Verif.Conc.A64Props
import Verif.Conc.A64Excl
import Verif.Conc.A64Message
import Verif.Conc.Order
import Verif.Conc.OrderRun
import Verif.Conc.OrderA64
import Verif.Conc.Explore
import Verif.Conc.OrderCounter
import Verif.Conc.Weak
import Verif.Conc.WeakA64
import Verif.Conc.WeakRun
import Verif.Conc.WeakDrf
import Verif.Conc.WeakArch
import Verif.Conc.WeakMessage
import Verif.Conc.WeakMessageX86
import Verif.Conc.WeakLock
import Verif.Conc.WeakCritical
import Verif.Conc.WeakCounter
import Verif.Conc.WeakCounterRV64
import Verif.Conc.WeakCounterX86
import Verif.Conc.WeakDekker
import Verif.Conc.OrderArch
import Verif.Lift.Untouched
import Verif.Lift.CfgDecoded
import Verif.Lift.Finish
import Verif.Lift.Inline
import Verif.X86.Rows
import Verif.X86.Dispatch
import Verif.X86.DispatchProps
import Verif.Facet.Model
import Verif.Facet.Props
