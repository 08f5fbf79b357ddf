import Verif.Spec.Isap
import Verif.Props.Aead
import Verif.Props.Interop
import Verif.Props.Memory
import Verif.Props.History
import Verif.Props.Armv7m
import Verif.Props.Robust
import Verif.Props.Concurrency
import Verif.Props.Hash
import Verif.Props.Perm
import Verif.Props.Design
import Verif.Props.Limits
import Verif.Props.Programs
import Verif.Props.Threads
import Verif.Props.Asm
import Verif.Test.Kat
import Verif.C.InlineAsm
import Verif.Spec.InlineAsm
import Verif.Proof.InlineAsm
import Verif.Props.InlineAsm
import Verif.Props.Collision
import Verif.C.Crash
import Verif.Proof.Once
import Verif.Proof.OnceEnc
import Verif.Props.Crash
import Verif.Proof.Static
import Verif.Props.Static
import Verif.Model.Locals
import Verif.Proof.Locals
import Verif.Props.Locals
import Verif.C.ByteOrder
import Verif.Model.ByteOrder
import Verif.Proof.ByteOrder
import Verif.Proof.BigEndian
import Verif.Proof.BigEndianWitness
import Verif.Props.ByteOrder
import Verif.Proof.Steps
import Verif.Proof.Work
import Verif.Proof.WorkApi
import Verif.Props.Work
import Verif.Spec.Queries
import Verif.Model.BlackBox
import Verif.Proof.Queries
import Verif.Proof.BlackBox
import Verif.Props.BlackBox
import Verif.C.Integer
import Verif.Model.Integer
import Verif.Proof.Integer
import Verif.Props.Integer
import Verif.C.EffectiveType
import Verif.Proof.EffectiveType
import Verif.Props.EffectiveType
import Verif.C.AsmFlags
import Verif.Proof.AsmFlags
import Verif.Props.AsmFlags
import Verif.Model.Placement
import Verif.Proof.Placement
import Verif.Props.Placement
import Verif.Model.StateArrays
import Verif.Proof.StateArrays
import Verif.Props.StateArrays
import Verif.Props.KeRemains
import Verif.Model.AvxArrays
import Verif.Proof.AvxArrays
import Verif.Props.AvxArrays
import Verif.Proof.StateAuthKey
import Verif.Proof.AvxAuthKey
import Verif.Props.StateAuthKey
import Verif.Spec.StreamKey
import Verif.Model.RefArrays
import Verif.Proof.RefArrays
import Verif.Proof.RefArraysApi
import Verif.Props.RefArrays
import Verif.Props.StreamKey
import Verif.Proof.RefAuthKey
import Verif.Spec.AuthKey
import Verif.Props.RefAuthKey
import Verif.Model.Tables
import Verif.Proof.Tables
import Verif.Props.Tables
import Verif.Model.BigEndian
import Verif.Proof.Stream
import Verif.Proof.CipherApi
import Verif.Proof.Lanes
import Verif.Proof.LanesA128
import Verif.Proof.MixedA
import Verif.Proof.MixedWitness
import Verif.Props.Forgery
import Verif.C.Array
import Verif.Model.BoundsRef
import Verif.Model.BoundsOpt
import Verif.Model.BoundsA128
import Verif.Model.BoundsK128
import Verif.Model.Bounds
import Verif.Proof.Checked
import Verif.Proof.BoundsRef
import Verif.Proof.BoundsPerm
import Verif.Proof.BoundsOpt
import Verif.Proof.BoundsA128
import Verif.Proof.BoundsK128
import Verif.Proof.Bounds
import Verif.Props.Bounds
import Verif.Proof.AvxLong
import Verif.Props.AvxLong
import Verif.Model.K128Order
import Verif.Proof.K128Order
import Verif.Proof.K128OrderWitness
import Verif.Props.KeccakOrder
import Verif.Props.EffectiveTypeLocal
import Verif.Proof.AccessKinds
import Verif.Props.UnionAccess
