import Verif.Context.Buffer
import Verif.Context.Convert
import Verif.Context.ConvertScalar
import Verif.Context.Database
import Verif.Context.DbContext
import Verif.Context.Model
import Verif.Context.Universal
import Verif.Core.BitRates
import Verif.Core.Bits
import Verif.Core.BitsLemmas
import Verif.Core.Bitset
import Verif.Core.BitsetLemmas
import Verif.Core.Hash
import Verif.Core.Interpolation
import Verif.Core.InterpolationLemmas
import Verif.Core.Lerp
import Verif.Core.LerpLemmas
import Verif.Core.LoopOptimize
import Verif.Core.Memory
import Verif.Core.MemoryLemmas
import Verif.Core.Packing
import Verif.Core.PackingLemmas
import Verif.Core.PolylineLemmas
import Verif.Core.PolylineSpec
import Verif.Core.ScalarPacking
import Verif.Core.ScalarPackingLemmas
import Verif.Core.ScanLemmas
import Verif.Database.Buffer
import Verif.Database.BufferApi
import Verif.Database.BufferLemmas
import Verif.Database.Build
import Verif.Database.BuildBind
import Verif.Database.BuildLemmas
import Verif.Database.BuildPlace
import Verif.Database.BuildRun
import Verif.Database.BuildServe
import Verif.Database.BuildSpec
import Verif.Database.BuildTiers
import Verif.Database.Chunks
import Verif.Database.ChunksLemmas
import Verif.Database.Concurrent
import Verif.Database.ConcurrentLemmas
import Verif.Database.Rewrite
import Verif.Database.RewriteApi
import Verif.Database.RewriteClip
import Verif.Database.RewriteDecode
import Verif.Database.RewriteInput
import Verif.Database.RewriteLemmas
import Verif.Database.RewriteMeta
import Verif.Database.RewriteOpen
import Verif.Database.RewriteRun
import Verif.Database.RoundTrip
import Verif.Database.Runtime
import Verif.Database.RuntimeLemmas
import Verif.Database.RuntimeState
import Verif.Database.StreamContext
import Verif.Database.StreamContextFinish
import Verif.Database.StreamContextLemmas
import Verif.Database.StreamContextMain
import Verif.Database.StreamContextRun
import Verif.Database.StreamContextSpec
import Verif.Database.Streamers
import Verif.Database.StreamersLemmas
import Verif.Database.StreamersMain
import Verif.Database.Streaming
import Verif.Database.StreamingLemmas
import Verif.Database.StreamingRefine
import Verif.Database.StreamingSpec
import Verif.Database.TierFrames
import Verif.Database.Tiers
import Verif.Database.TiersLemmas
import Verif.Database.Timeline
import Verif.Database.TimelineSpec
import Verif.Float.Bits
import Verif.Float.F32
import Verif.Io.ClipText
import Verif.Io.ClipTextLemmas
import Verif.Io.ClipTextRead
import Verif.Io.Names
import Verif.Layout.Accessors
import Verif.Layout.Bytes
import Verif.Layout.Clip
import Verif.Layout.ClipLemmas
import Verif.Layout.ClipReads
import Verif.Layout.Headers
import Verif.Layout.Metadata
import Verif.Layout.MetadataLemmas
import Verif.Layout.MetadataReads
import Verif.Math.FixedFormats
import Verif.Math.FixedLemmas
import Verif.Memory.AnsiAllocator
import Verif.Memory.BuildDatabase
import Verif.Memory.Compress
import Verif.Memory.CompressScalar
import Verif.Memory.DbLifecycle
import Verif.Memory.Heap
import Verif.Memory.MeasureConvert
import Verif.Memory.Proofs
import Verif.Props.C01
import Verif.Props.C02
import Verif.Props.C03
import Verif.Props.C04
import Verif.Props.C05
import Verif.Props.C06
import Verif.Props.C07
import Verif.Props.C08
import Verif.Props.C09
import Verif.Props.C10
import Verif.Props.C11
import Verif.Props.C12
import Verif.Props.C13
import Verif.Props.C14
import Verif.Props.C15
import Verif.Props.C16
import Verif.Props.C17
import Verif.Props.C18
import Verif.Props.C19
import Verif.Props.C20
import Verif.Props.C21
import Verif.Props.C22
import Verif.Props.C23
import Verif.Props.C24
import Verif.Props.C25
import Verif.Props.C26
import Verif.Props.C27
import Verif.Props.C28
import Verif.Props.C29
import Verif.Props.C30
import Verif.Props.C31
import Verif.Props.C32
import Verif.Props.C33
import Verif.Props.C34
import Verif.Props.C35
import Verif.Props.C36
import Verif.Props.C37
import Verif.Props.C38
import Verif.Props.C39
import Verif.Props.C40
import Verif.Props.C41
import Verif.Props.C42
import Verif.Props.C43
import Verif.Props.C44
import Verif.Props.C45
import Verif.Props.C46
import Verif.Props.C47
import Verif.Props.C48
import Verif.Props.C49
import Verif.Props.C50
import Verif.Props.C51
import Verif.Props.C52
import Verif.Props.C53
import Verif.Props.C54
import Verif.Props.C55
import Verif.Props.C56
import Verif.Props.C57
import Verif.Props.C58
import Verif.Props.C59
import Verif.Props.C60
import Verif.Props.C61
import Verif.Props.C62
import Verif.Props.C63
import Verif.Props.C64
import Verif.Props.C65
import Verif.Props.C66
import Verif.Props.C67
import Verif.Props.C68
import Verif.Props.C69
import Verif.Props.C70
import Verif.Props.C71
import Verif.Props.C72
import Verif.Props.C73
import Verif.Props.C74
import Verif.Props.C75
import Verif.Props.C76
import Verif.Props.C77
import Verif.Props.C78
import Verif.Props.C79
import Verif.Props.C80
import Verif.Props.C81
import Verif.Props.C82
import Verif.Props.C83
import Verif.Props.C84
import Verif.Props.C85
import Verif.Props.C86
import Verif.Props.C87
import Verif.Props.C88
import Verif.Props.C89
import Verif.Props.C90
import Verif.Props.C91
import Verif.Raw.PreProcess
import Verif.Raw.PreProcessLemmas
import Verif.Raw.StringMemory
import Verif.Raw.TrackArray
import Verif.Raw.TrackError
import Verif.Raw.TrackMemory
import Verif.Scalar.Buffer
import Verif.Scalar.BufferLemmas
import Verif.Scalar.Quantize
import Verif.Scalar.QuantizeLemmas
import Verif.Scalar.Reader
import Verif.Scalar.Writer
import Verif.Scalar.WriterLemmas
import Verif.Settings.Model
import Verif.Settings.Tracks
import Verif.Transform.AdditiveTimes
import Verif.Transform.AnimatedCache
import Verif.Transform.AnimatedFound
import Verif.Transform.AnimatedFrames
import Verif.Transform.AnimatedLemmas
import Verif.Transform.AnimatedRotations
import Verif.Transform.AnimatedSpec
import Verif.Transform.AnimatedVectors
import Verif.Transform.AnimatedWriter
import Verif.Transform.AnimatedWriterLemmas
import Verif.Transform.BitRateLocal
import Verif.Transform.BitRateObject
import Verif.Transform.BitRateSearch
import Verif.Transform.BitRateSearchSpec
import Verif.Transform.ClipContext
import Verif.Transform.ClipOpenLemmas
import Verif.Transform.ClipPose
import Verif.Transform.ClipWriter
import Verif.Transform.ClipWriterLemmas
import Verif.Transform.Compact
import Verif.Transform.CompactLemmas
import Verif.Transform.Compressor
import Verif.Transform.ConstantCache
import Verif.Transform.ConstantCacheLemmas
import Verif.Transform.ConstantCacheReader
import Verif.Transform.ContributingError
import Verif.Transform.ContributingErrorLemmas
import Verif.Transform.ContributingErrorMain
import Verif.Transform.ContributingErrorSpec
import Verif.Transform.Decompress
import Verif.Transform.DecompressLemmas
import Verif.Transform.ErrorMetric
import Verif.Transform.ErrorMetricLemmas
import Verif.Transform.Hierarchy
import Verif.Transform.HierarchyLemmas
import Verif.Transform.HierarchySpec
import Verif.Transform.PoseUtils
import Verif.Transform.Quantize
import Verif.Transform.QuantizeClip
import Verif.Transform.QuantizeClose
import Verif.Transform.QuantizeLemmas
import Verif.Transform.RangeReduction
import Verif.Transform.RangeReductionLemmas
import Verif.Transform.RateCache
import Verif.Transform.RateCacheClip
import Verif.Transform.RateCacheLemmas
import Verif.Transform.ReconstructLemmas
import Verif.Transform.RigidShell
import Verif.Transform.Rotation
import Verif.Transform.RotationLemmas
import Verif.Transform.SampleKey
import Verif.Transform.SampleStreams
import Verif.Transform.SampleStreamsLemmas
import Verif.Transform.Seek
import Verif.Transform.SeekLemmas
import Verif.Transform.SeekMain
import Verif.Transform.SeekSpec
import Verif.Transform.SegmentSearch
import Verif.Transform.Segmenting
import Verif.Transform.SegmentingLemmas
import Verif.Transform.Stripping
import Verif.Transform.SubTracks
import Verif.Transform.SubTracksLemmas
import Verif.Transform.SweepLemmas
import Verif.Transform.Values
