import Verif.Mpt.Props
import Verif.Mpt.PropsHash
import Verif.Mpt.Yellow
import Verif.Nibbles.Props
import Verif.Mpt.Query
import Verif.Mpt.Collapse
import Verif.World.Keys
import Verif.World.Linked
import Verif.Decoder.Batch
import Verif.Decoder.Counters
import Verif.Decoder.Code
import Verif.Decoder.Linked
import Verif.Decoder.Block
import Verif.Decoder.Witness
import Verif.Smt.Props
import Verif.Smt.Partial
import Verif.Smt.Build
import Verif.Smt.Bits
import Verif.Smt.Code
import Verif.Smt.Serialize
import Verif.Smt.Keys
import Verif.World.Type2
import Verif.World.Type2Demo
import Verif.Wire.Parse
import Verif.Wire.Cbor
import Verif.Wire.Type2
import Verif.Wire.Type1
import Verif.Decoder.Scalable
import Verif.Zero.Interval
import Verif.Zero.Retry
import Verif.Zero.Parse
import Verif.Zero.Aggregate
import Verif.Zero.Chain
import Verif.Zero.Config
import Verif.Zero.Cache
import Verif.Zero.Resume
import Verif.Zero.PrevHashes
import Verif.Zero.Provider
import Verif.Stark.Arith.Export
import Verif.Stark.Logic
import Verif.Stark.Memory.Claims
import Verif.Kernel.OptClaims
import Verif.Kernel.StackClaims
import Verif.Recursion.Claims73
import Verif.Recursion.TwoToOne
import Verif.Recursion.Claims79
import Verif.Recursion.Claims80
import Verif.Recursion.Claims82
import Verif.Stark.Keccak.Kat
import Verif.Stark.Keccak.Claims
import Verif.Stark.BytePacking.Gen
import Verif.Stark.Sponge.Spec
import Verif.Stark.Sponge.Table
import Verif.Stark.Sponge.Sound
import Verif.Stark.Sponge.Cells
import Verif.Stark.Sponge.Eval
import Verif.Stark.Sponge.Strings
import Verif.Stark.Sponge.Claims
import Verif.Stark.Sponge.Gen
import Verif.Stark.Cpu.Table
import Verif.Stark.Cpu.Basic
import Verif.Stark.Cpu.Spec
import Verif.Stark.Cpu.Concrete
import Verif.Stark.Cpu.Decode
import Verif.Stark.Cpu.DecodeEx
import Verif.Stark.Cpu.Flow
import Verif.Stark.Cpu.One
import Verif.Stark.Cpu.Regs
import Verif.Stark.Cpu.Pad
import Verif.Stark.Cpu.Bus
import Verif.Stark.Cpu.Ops
import Verif.Stark.Cpu.Machine
import Verif.Stark.Cpu.Sim
import Verif.Stark.Cpu.Exec
import Verif.Stark.Cpu.Claim
import Verif.Stark.Cpu.ClaimEx
import Verif.Stark.Memory.Gen
import Verif.Stark.Memory.Fill
import Verif.Stark.Memory.History
import Verif.Stark.Memory.Rows
import Verif.Stark.Memory.Complete
import Verif.Stark.Memory.Handover
import Verif.Stark.Arith.Gen
import Verif.Stark.Arith.GenLimbs
import Verif.Stark.Arith.GenModular
import Verif.Stark.Arith.GenRows
import Verif.Stark.Arith.GenDivmod
import Verif.Stark.Arith.GenMod
import Verif.Stark.Arith.GenByte
import Verif.Stark.Arith.GenTable
import Verif.Stark.Arith.GenClaims
import Verif.Stark.Memory.Sequence
import Verif.Kasm.Signed
import Verif.Kasm.Exp
import Verif.Kasm.ListClaims
import Verif.Kasm.AccessClaims
import Verif.Kasm.JumpdestClaims
import Verif.Kasm.BignumClaims
import Verif.Kasm.CopyClaims
import Verif.Kasm.ModexpClaims
import Verif.Kasm.EnvClaims
import Verif.Kasm.MemSysClaims
import Verif.Kasm.CallGasClaims
import Verif.Kasm.StorageClaims
import Verif.Kasm.TxnClaims
import Verif.Kasm.TransferClaims
import Verif.Kasm.SettleClaims
import Verif.Kasm.DestructClaims
import Verif.Kasm.RevertClaims
import Verif.Kasm.DepositClaims
import Verif.Kasm.TransientClaims
import Verif.Kasm.RlpClaims
import Verif.Kasm.Type0Claims
import Verif.Kasm.RouterClaims
import Verif.Kasm.TypedClaims
import Verif.Kasm.AccessReadClaims
import Verif.Kasm.BlobClaims
import Verif.Kasm.BlobRejected
import Verif.Kasm.Misaligned
import Verif.Kasm.BlobReadClaims
import Verif.Kasm.NewAddress
import Verif.Kasm.Logs
import Verif.Kasm.LogSys
import Verif.Kasm.Bloom
import Verif.Kasm.Receipt
