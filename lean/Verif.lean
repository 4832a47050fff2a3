import Verif.Lemmas.Account
import Verif.Lemmas.AccountSignature
import Verif.Lemmas.Arith
import Verif.Lemmas.AssetMeta
import Verif.Lemmas.Auth
import Verif.Lemmas.AuthMgr
import Verif.Lemmas.AuthUse
import Verif.Lemmas.BnOrder
import Verif.Lemmas.Budget
import Verif.Lemmas.Collections
import Verif.Lemmas.CollectionsAlloc
import Verif.Lemmas.CollectionsBound
import Verif.Lemmas.CollectionsPaid
import Verif.Lemmas.Compare
import Verif.Lemmas.CompareHost
import Verif.Lemmas.CompareVal
import Verif.Lemmas.Containers
import Verif.Lemmas.Contexts
import Verif.Lemmas.ContractTypes
import Verif.Lemmas.Convert
import Verif.Lemmas.CurvePoints
import Verif.Lemmas.CurvePrimes
import Verif.Lemmas.Curves
import Verif.Lemmas.Delegates
import Verif.Lemmas.DelegatesOk
import Verif.Lemmas.Denote
import Verif.Lemmas.Diagnostics
import Verif.Lemmas.E2e
import Verif.Lemmas.E2eRecording
import Verif.Lemmas.Emulation
import Verif.Lemmas.Generators
import Verif.Lemmas.HostAuth
import Verif.Lemmas.HostAuthExact
import Verif.Lemmas.HostCall
import Verif.Lemmas.HostCallExact
import Verif.Lemmas.HostCoh
import Verif.Lemmas.HostCreate
import Verif.Lemmas.HostData
import Verif.Lemmas.HostDeploy
import Verif.Lemmas.HostExtend
import Verif.Lemmas.HostFrame
import Verif.Lemmas.HostReach
import Verif.Lemmas.HostReplay
import Verif.Lemmas.HostRun
import Verif.Lemmas.HostSerial
import Verif.Lemmas.HostSerialRun
import Verif.Lemmas.HostStore
import Verif.Lemmas.HostView
import Verif.Lemmas.Int
import Verif.Lemmas.IntRun
import Verif.Lemmas.LazyEntry
import Verif.Lemmas.LazyLog
import Verif.Lemmas.LedgerKey
import Verif.Lemmas.Memory
import Verif.Lemmas.MemorySpec
import Verif.Lemmas.MeteredClone
import Verif.Lemmas.Metering
import Verif.Lemmas.Natural
import Verif.Lemmas.Objects
import Verif.Lemmas.Opaque
import Verif.Lemmas.OpaqueConvert
import Verif.Lemmas.OpaqueMem
import Verif.Lemmas.OpaqueRun
import Verif.Lemmas.Poseidon
import Verif.Lemmas.Poseidon2
import Verif.Lemmas.PoseidonPerm
import Verif.Lemmas.Preimage
import Verif.Lemmas.Primes
import Verif.Lemmas.Prng
import Verif.Lemmas.Recording
import Verif.Lemmas.RecordingFail
import Verif.Lemmas.RecordingMgr
import Verif.Lemmas.RecordingRun
import Verif.Lemmas.RustValues
import Verif.Lemmas.Sac
import Verif.Lemmas.SacBase
import Verif.Lemmas.SacCalls
import Verif.Lemmas.SacEvents
import Verif.Lemmas.SacFacts
import Verif.Lemmas.SacOps
import Verif.Lemmas.SacRefusal
import Verif.Lemmas.SacRefusalCalls
import Verif.Lemmas.SacRefusalExec
import Verif.Lemmas.SacRefusalOps
import Verif.Lemmas.SacSteps
import Verif.Lemmas.SacStorage
import Verif.Lemmas.SacTotal
import Verif.Lemmas.SacValues
import Verif.Lemmas.ScVal
import Verif.Lemmas.Signatures
import Verif.Lemmas.Simulation
import Verif.Lemmas.SomePairing
import Verif.Lemmas.Storage
import Verif.Lemmas.StorageRec
import Verif.Lemmas.Strkey
import Verif.Lemmas.StrkeyBits
import Verif.Lemmas.StrkeyCrc
import Verif.Lemmas.StrkeyTypo
import Verif.Lemmas.Symbols
import Verif.Lemmas.Tracker
import Verif.Lemmas.Usable
import Verif.Lemmas.Val
import Verif.Lemmas.Wasm
import Verif.Lemmas.WasmCosts
import Verif.Lemmas.Xdr
import Verif.Lemmas.XdrForm
import Verif.Model.Account
import Verif.Model.AccountSignature
import Verif.Model.Arith
import Verif.Model.AssetMeta
import Verif.Model.Auth
import Verif.Model.Budget
import Verif.Model.Collections
import Verif.Model.Containers
import Verif.Model.Context
import Verif.Model.ContractTypes
import Verif.Model.Convert
import Verif.Model.Curves
import Verif.Model.Delegates
import Verif.Model.Diagnostics
import Verif.Model.E2e
import Verif.Model.E2eRecording
import Verif.Model.Emulation
import Verif.Model.Err
import Verif.Model.Errors
import Verif.Model.Events
import Verif.Model.FMap
import Verif.Model.Fees
import Verif.Model.Host
import Verif.Model.HostFail
import Verif.Model.HostFunctions
import Verif.Model.Int
import Verif.Model.LazyEntry
import Verif.Model.LedgerKey
import Verif.Model.Memory
import Verif.Model.MeteredClone
import Verif.Model.Metering
import Verif.Model.NetworkConfig
import Verif.Model.Objects
import Verif.Model.Poseidon
import Verif.Model.Preimage
import Verif.Model.Prng
import Verif.Model.RecordedAuth
import Verif.Model.Recording
import Verif.Model.RustValues
import Verif.Model.Sac
import Verif.Model.SacStorage
import Verif.Model.SacValues
import Verif.Model.ScVal
import Verif.Model.Signatures
import Verif.Model.Simulation
import Verif.Model.Storage
import Verif.Model.Strkey
import Verif.Model.Symbols
import Verif.Model.Val
import Verif.Model.VmCall
import Verif.Model.Wasm
import Verif.Model.Xdr
import Verif.Props.Account
import Verif.Props.AccountSignature
import Verif.Props.AssetMeta
import Verif.Props.Auth
import Verif.Props.Budget
import Verif.Props.Bytes
import Verif.Props.Collections
import Verif.Props.Compare
import Verif.Props.Context
import Verif.Props.ContractTypes
import Verif.Props.Convert
import Verif.Props.Curves
import Verif.Props.Delegates
import Verif.Props.Diagnostics
import Verif.Props.E2e
import Verif.Props.E2eRecording
import Verif.Props.Emulation
import Verif.Props.Errors
import Verif.Props.Events
import Verif.Props.Fees
import Verif.Props.Host
import Verif.Props.HostAuth
import Verif.Props.HostCallExact
import Verif.Props.HostCase
import Verif.Props.HostContainers
import Verif.Props.HostData
import Verif.Props.HostDeploy
import Verif.Props.HostEntries
import Verif.Props.HostExec
import Verif.Props.HostExtend
import Verif.Props.HostFail
import Verif.Props.HostHistory
import Verif.Props.HostInst
import Verif.Props.HostSerial
import Verif.Props.HostUpdates
import Verif.Props.InstanceWords
import Verif.Props.Int
import Verif.Props.IntCalls
import Verif.Props.LazyEntry
import Verif.Props.LedgerKey
import Verif.Props.Maps
import Verif.Props.Memory
import Verif.Props.MemoryCalls
import Verif.Props.MemoryFrame
import Verif.Props.MemoryMaps
import Verif.Props.MemoryOps
import Verif.Props.MemorySound
import Verif.Props.MeteredClone
import Verif.Props.Metering
import Verif.Props.MeteringFees
import Verif.Props.NetworkConfig
import Verif.Props.Objects
import Verif.Props.Poseidon
import Verif.Props.PoseidonKat
import Verif.Props.Preimage
import Verif.Props.Prng
import Verif.Props.RecordedAuth
import Verif.Props.Recording
import Verif.Props.Rent
import Verif.Props.RustValues
import Verif.Props.Sac
import Verif.Props.SacAllow
import Verif.Props.SacRefusal
import Verif.Props.SacStorage
import Verif.Props.SacValues
import Verif.Props.Signatures
import Verif.Props.Simulation
import Verif.Props.Storage
import Verif.Props.Strkey
import Verif.Props.Symbols
import Verif.Props.Table
import Verif.Props.Val
import Verif.Props.VecCalls
import Verif.Props.Vectors
import Verif.Props.VmCall
import Verif.Props.Wasm
import Verif.Props.Xdr
import Verif.Spec.Account
import Verif.Spec.AccountSignature
import Verif.Spec.AssetMeta
import Verif.Spec.Budget
import Verif.Spec.Bytes
import Verif.Spec.Collections
import Verif.Spec.Containers
import Verif.Spec.Context
import Verif.Spec.ContractTypes
import Verif.Spec.CurvePoints
import Verif.Spec.Curves
import Verif.Spec.Delegates
import Verif.Spec.Diagnostics
import Verif.Spec.E2e
import Verif.Spec.E2eRecording
import Verif.Spec.Emulation
import Verif.Spec.Errors
import Verif.Spec.Events
import Verif.Spec.Fees
import Verif.Spec.Host
import Verif.Spec.HostAuth
import Verif.Spec.HostCallable
import Verif.Spec.HostData
import Verif.Spec.HostDeploy
import Verif.Spec.HostExec
import Verif.Spec.HostExtend
import Verif.Spec.HostHistory
import Verif.Spec.HostSerial
import Verif.Spec.HostUpdates
import Verif.Spec.InstanceWords
import Verif.Spec.Int
import Verif.Spec.LazyEntry
import Verif.Spec.LedgerKey
import Verif.Spec.Memory
import Verif.Spec.MeteredClone
import Verif.Spec.Metering
import Verif.Spec.MeteringFees
import Verif.Spec.NetworkConfig
import Verif.Spec.Objects
import Verif.Spec.Poseidon
import Verif.Spec.Preimage
import Verif.Spec.Prng
import Verif.Spec.RecordedAuth
import Verif.Spec.Recording
import Verif.Spec.RecordingFail
import Verif.Spec.RustValues
import Verif.Spec.Sac
import Verif.Spec.SacHistory
import Verif.Spec.SacRefusal
import Verif.Spec.SacRefusalCall
import Verif.Spec.SacStorage
import Verif.Spec.SacValues
import Verif.Spec.ScVal
import Verif.Spec.Signatures
import Verif.Spec.Simulation
import Verif.Spec.Storage
import Verif.Spec.Strkey
import Verif.Spec.Symbols
import Verif.Spec.Val
import Verif.Spec.VecCalls
import Verif.Spec.VmCall
import Verif.Spec.Wasm
import Verif.Spec.Xdr
import Verif.Spec.XdrForm
