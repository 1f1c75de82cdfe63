import Verif.Props.Synchsafe
import Verif.Props.FlacMove
import Verif.Props.Rfind
import Verif.Props.Math
import Verif.Props.OggCrc
import Verif.Props.Ogg
import Verif.Props.Text
import Verif.Props.Timestamp
import Verif.Props.Pairs
import Verif.Props.Picture
import Verif.Props.Vorbis
import Verif.Props.Id3v1
import Verif.Props.Id3v2Header
import Verif.Props.Id3v2Flags
import Verif.Props.Id3v2Items
import Verif.Props.Id3v2List
import Verif.Props.Id3v2Tag
import Verif.Props.Id3v2Skip
import Verif.Props.Flac
import Verif.Props.Wav
import Verif.Props.Aiff
import Verif.Props.IffWalk
import Verif.Props.Ape
import Verif.Props.TagFiles
import Verif.Props.ItemKey
import Verif.Props.Rating
import Verif.Props.Mpeg
import Verif.Props.FileType
import Verif.Props.TaggedFile
import Verif.Props.Tag
import Verif.Props.Aac
import Verif.Props.Mpc
import Verif.Props.OggProps
import Verif.Props.OggWrite
import Verif.Props.FileTags
import Verif.Props.Lossless
import Verif.Props.WavPack
import Verif.Props.AudioFiles
import Verif.Props.Mp4Props
import Verif.Props.Mp4Audio
import Verif.Props.IffFiles
import Verif.Props.PictureInfo
import Verif.Props.PictureStorage
import Verif.Props.Save
import Verif.Props.Detection
import Verif.Props.EndToEnd
import Verif.Props.EndToEndId3v2
import Verif.Props.Modes
import Verif.Props.NoPanic
import Verif.Props.Accessor
import Verif.Props.AccessorOthers
import Verif.Props.Removed
import Verif.Props.Wanted
import Verif.Props.Untagged
import Verif.Props.WantedFiles
import Verif.Props.Covers
import Verif.Props.Again
import Verif.Props.Shown
import Verif.Props.Id3v2Crc
import Verif.Props.Order
import Verif.Props.Dump
import Verif.Props.Resolvers
import Verif.Props.Position
import Verif.Props.PositionChunks
import Verif.Props.Paths
import Verif.Props.Alloc
import Verif.Props.Storage
import Verif.Props.Bound
import Verif.Props.BoundOthers
import Verif.Props.BoundOgg
import Verif.Props.BoundFlac
import Verif.Props.BoundMp4
import Verif.Props.Equality
import Verif.Props.ApePicture
import Verif.Props.Values
import Verif.Props.Id3v22
import Verif.Props.Chained
import Verif.Props.SeveralChunks
import Verif.Props.SeveralAiff
import Verif.Model.Ratings
import Verif.Props.Ratings
import Verif.Props.PicturesSaved
import Verif.Props.Limits
import Verif.Props.LimitsFront
import Verif.Props.LimitsApe
import Verif.Props.LimitsPadding
import Verif.Props.ShortChunks
import Verif.Props.StrictChunks
import Verif.Props.ExtendedHeader
import Verif.Props.ExperimentalHeader
import Verif.Props.ExperimentalFiles
import Verif.Props.ExperimentalChunks
import Verif.Props.ExtendedTag
import Verif.Props.ExtendedChunks
import Verif.Props.ChainedFile
import Verif.Props.Id3v23Dates
import Verif.Props.Id3v22File
import Verif.Props.Masks
import Verif.Props.Count
import Verif.Props.Links
import Verif.Props.MpcPackets
import Verif.Props.Ilst
import Verif.Props.IlstTotal
import Verif.Props.IlstOps
import Verif.Props.Mp4Write
import Verif.Props.Mp4Create
import Verif.Props.Mp4Read
import Verif.Props.Convert
import Verif.Props.ConvertVorbis
import Verif.Props.ConvertApe
import Verif.Props.ConvertDirect
import Verif.Props.ConvertIlstKept
import Verif.Props.IlstRead
import Verif.Props.StreamHeaders
import Verif.Props.Id3v23
import Verif.Props.ConvertId3v2
import Verif.Props.ConvertId3v2Merge
