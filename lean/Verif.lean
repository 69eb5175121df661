import Verif.Props.Varint
import Verif.Props.AddrCache
import Verif.Props.CodeTable
import Verif.Props.Adler
import Verif.Props.Decoder
import Verif.Props.Rfc
import Verif.Props.Stream
import Verif.Props.Pipe
import Verif.Props.OutputString
import Verif.Props.Reuse
import Verif.Props.RollingHash
import Verif.Props.BlockHash
import Verif.Props.Engine
import Verif.Props.Writer
import Verif.Props.Encoder
import Verif.Props.Custom
import Verif.Props.Threads
import Verif.Model.WriterInterface
import Verif.Spec.WriterInterface
import Verif.Proof.WriterInterface
import Verif.Props.WriterInterface
import Verif.Spec.WriterHistory
import Verif.Proof.WriterHistory
import Verif.Props.WriterHistory
import Verif.Spec.Memory
import Verif.Proof.Memory
import Verif.Proof.MemoryWitness
import Verif.Props.Memory
import Verif.Model.Debug
import Verif.Spec.Debug
import Verif.Proof.Debug
import Verif.Proof.DebugChunk
import Verif.Proof.DebugPlain
import Verif.Proof.DebugCalls
import Verif.Proof.DebugWitness
import Verif.Props.Debug
import Verif.Props.Cli
import Verif.Props.Json
import Verif.Model.Main
import Verif.Spec.Main
import Verif.Proof.Main
import Verif.Proof.MainRun
import Verif.Props.Main
import Verif.Vectors.Standard
import Verif.Vectors.StandardBytes
import Verif.Vectors.Interleaved
import Verif.Vectors.Windows
import Verif.Props.Joined
import Verif.Model.Work
import Verif.Proof.Work
import Verif.Props.Work
import Verif.Spec.Edit
import Verif.Proof.Edit
import Verif.Props.Edit
import Verif.Model.SimpleDecoder
import Verif.Props.SimpleDecoder
import Verif.Spec.Dictionary
import Verif.Proof.SelfDelimiting
import Verif.Proof.Dictionary
import Verif.Proof.OtherDictionary
import Verif.Props.Dictionary
import Verif.Spec.Shortest
import Verif.Proof.Shortest
import Verif.Props.Shortest
import Verif.Model.DecodeWork
import Verif.Proof.DecodeWork
import Verif.Proof.DecodeWorkWindows
import Verif.Proof.DecodeWorkChunk
import Verif.Proof.DecodeWorkFeed
import Verif.Props.DecodeWork
import Verif.Spec.Faults
import Verif.Proof.Faults
import Verif.Spec.Damage
import Verif.Proof.Damage
import Verif.Props.Damage
import Verif.Props.Release
import Verif.Props.EncodeWork
import Verif.Spec.SimpleJson
import Verif.Props.SimpleJson
import Verif.Proof.Command
import Verif.Props.Command
import Verif.Model.WordSize
import Verif.Spec.WordSize
import Verif.Proof.WordSize
import Verif.Props.WordSize
import Verif.Props.Hostile
import Verif.Props.Requests
import Verif.Model.Lifetime
import Verif.Proof.Lifetime
import Verif.Proof.LifetimeBody
import Verif.Proof.LifetimeWindow
import Verif.Proof.LifetimeHeader
import Verif.Proof.LifetimeChunk
import Verif.Props.Lifetime
import Verif.Model.Ownership
import Verif.Spec.Ownership
import Verif.Proof.Ownership
import Verif.Proof.ReleaseAny
import Verif.Props.Ownership
import Verif.Spec.EncoderMemory
import Verif.Proof.EncoderMemory
import Verif.Props.EncoderMemory
import Verif.Vectors.Units
import Verif.Vectors.Loops
import Verif.Vectors.Writer
import Verif.Vectors.Encoder
import Verif.Vectors.Engine
import Verif.Vectors.Command
import Verif.Proof.OffsetOverflow
import Verif.Props.OffsetOverflow
import Verif.Model.Machine
import Verif.Proof.Machine
import Verif.Props.Machine
import Verif.Model.Exceptions
import Verif.Proof.Exceptions
import Verif.Proof.ExceptionsEncoder
import Verif.Props.Exceptions
import Verif.Spec.ExceptionsResume
import Verif.Proof.ExceptionsResume
import Verif.Props.ExceptionsResume
import Verif.Model.Log
import Verif.Proof.Log
import Verif.Spec.Log
import Verif.Proof.LogCalls
import Verif.Model.EncoderLog
import Verif.Proof.EncoderLog
import Verif.Props.Log
import Verif.Model.MainLog
import Verif.Spec.MainLog
import Verif.Proof.MainLog
import Verif.Props.MainLog
import Verif.Spec.Repeat
import Verif.Props.Repeat
import Verif.Model.MainStats
import Verif.Spec.MainStats
import Verif.Proof.MainStats
import Verif.Props.MainStats
import Verif.Model.OutputClass
import Verif.Spec.OutputClass
import Verif.Proof.OutputClass
import Verif.Props.OutputClass
import Verif.Spec.Limits
import Verif.Proof.Limits
import Verif.Props.Limits
import Verif.Spec.AllowTarget
import Verif.Proof.AllowTarget
import Verif.Props.AllowTarget
import Verif.Props.Reference
import Verif.Props.ReferenceExtended
import Verif.Props.Common
import Verif.Spec.Undefined
import Verif.Proof.Undefined
import Verif.Props.Undefined
import Verif.Proof.Unsupported
import Verif.Props.Unsupported
