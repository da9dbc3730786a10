import Verif.Model.Decode
import Verif.Lemmas.Closure
import Verif.Lemmas.Compress
import Verif.Lemmas.Fuel
import Verif.Lemmas.Sim
import Verif.Lemmas.Count
import Verif.Spec.Grid
import Verif.Spec.FilePicture
import Verif.Spec.PixelPaint
import Verif.Spec.Document
import Verif.Props.Config
import Verif.Props.Codec
import Verif.Props.Tree
import Verif.Props.Order
import Verif.Props.Decode
import Verif.Lemmas.Eager
import Verif.Props.Ending
import Verif.Props.Pixel
import Verif.Props.Blend
import Verif.Props.Color
import Verif.Props.PorterDuff
import Verif.Props.Blend16
import Verif.Model.Prog
import Verif.Model.Draw
import Verif.Spec.Draw
import Verif.Lemmas.Prog
import Verif.Lemmas.Draw
import Verif.Lemmas.DrawRun
import Verif.Lemmas.DrawMain
import Verif.Lemmas.DrawAll
import Verif.Props.Draw
import Verif.Props.Names
import Verif.Props.Conc
import Verif.Props.Transform
import Verif.Props.Tiles
import Verif.Props.Trim
import Verif.Props.TileStore
import Verif.Props.CTree
import Verif.Props.Clone
import Verif.Props.CloneRender
import Verif.Props.Renderer
import Verif.Spec.Alike
import Verif.Spec.Paint
import Verif.Spec.Rendered
import Verif.Lemmas.Coherent
import Verif.Lemmas.Edited
import Verif.Lemmas.View
import Verif.Lemmas.Dirty
import Verif.Lemmas.PicSim
import Verif.Lemmas.History
import Verif.Lemmas.Crisp
import Verif.Lemmas.Sync
import Verif.Props.Cache
import Verif.Lemmas.RenderOk
import Verif.Props.Modes
import Verif.Model.Buffers
import Verif.Lemmas.Buffers
import Verif.Lemmas.TileLocal
import Verif.Lemmas.Goroutines
import Verif.Spec.Pool
import Verif.Props.Buffers
import Verif.Model.Load
import Verif.Spec.Load
import Verif.Lemmas.Load
import Verif.Lemmas.PlaneLen
import Verif.Lemmas.LoadTiles
import Verif.Props.Load
import Verif.Props.EmptyRect
import Verif.Props.Gray
import Verif.Model.Image
import Verif.Props.Image
import Verif.Props.Callback
import Verif.Spec.Picture
import Verif.Lemmas.Fresh
import Verif.Lemmas.Stacked
import Verif.Lemmas.Sight
import Verif.Lemmas.Unseen
import Verif.Lemmas.ClipAlpha
import Verif.Lemmas.DocList
import Verif.Lemmas.Cover
import Verif.Props.Picture
import Verif.Props.Seen
import Verif.Props.Cover
import Verif.Props.Clipped
import Verif.Model.Scene
import Verif.Lemmas.Masked
import Verif.Lemmas.Scene
import Verif.Props.Masks
import Verif.Props.EndToEnd
import Verif.Model.Resample
import Verif.Spec.Resample
import Verif.Lemmas.Resample
import Verif.Lemmas.Retile
import Verif.Props.Resample
import Verif.Model.Scaled
import Verif.Props.Scaled
import Verif.Model.Thumbnail
import Verif.Spec.Thumbnail
import Verif.Props.Thumbnail
import Verif.Model.NameDetect
import Verif.Spec.NameDetect
import Verif.Props.NameDetect
import Verif.Model.Exporter
import Verif.Spec.Exporter
import Verif.Props.Exporter
import Verif.Spec.Drawable
import Verif.Lemmas.PanicLayers
import Verif.Spec.Content
import Verif.Props.Content
import Verif.Lemmas.FilePicture
import Verif.Props.FileToPicture
import Verif.Lemmas.PixelPaint
import Verif.Lemmas.FilePixel
import Verif.Props.FilePixels
import Verif.Spec.MaskBlock
import Verif.Lemmas.MaskBlock
import Verif.Props.MaskBlock
import Verif.Spec.Unzipped
import Verif.Lemmas.ZipMerged
import Verif.Props.ZipMerged
import Verif.Props.Float
import Verif.Lemmas.Observer
import Verif.Props.Front
import Verif.Props.Observers
import Verif.Spec.BlendLaws
import Verif.Lemmas.BlendLaws
import Verif.Props.BlendLaws
import Verif.Props.Luminosity
import Verif.Model.FloatColor
import Verif.Spec.FloatColor
import Verif.Lemmas.FloatColor
import Verif.Props.FloatColor
import Verif.Props.FloatModel
import Verif.Model.Gamma
import Verif.Spec.Gamma
import Verif.Lemmas.Gamma
import Verif.Props.Gamma
import Verif.Model.Float64
import Verif.Lemmas.Float64
import Verif.Lemmas.Lum16
import Verif.Props.Lum16
import Verif.Model.Transform64
import Verif.Props.Transform64
import Verif.Model.Sqrt64
import Verif.Lemmas.Sqrt64
import Verif.Props.Sqrt64
import Verif.Props.Dissolve
import Verif.Spec.Shade
import Verif.Lemmas.Shade
import Verif.Props.Shade
import Verif.Lemmas.Rearrange
import Verif.Props.Overlap
import Verif.Spec.Edited
import Verif.Props.Edited
import Verif.Spec.Solid
import Verif.Lemmas.Solid
import Verif.Props.Solid
import Verif.Props.PdFallback
import Verif.Spec.Again
import Verif.Lemmas.Again
import Verif.Props.Again
import Verif.Spec.Composed
import Verif.Lemmas.Composed
import Verif.Props.Composed
import Verif.Spec.WithAttr
import Verif.Spec.FileEdits
import Verif.Props.FileEdits
import Verif.Lemmas.Alpha
import Verif.Spec.Alpha
import Verif.Lemmas.OtherModes
import Verif.Props.Alpha
import Verif.Spec.Channels
import Verif.Spec.Negative
import Verif.Lemmas.Relation
import Verif.Lemmas.Channels
import Verif.Props.Channels
import Verif.Props.Negative
import Verif.Spec.Coverage
import Verif.Props.Coverage
import Verif.Spec.Accessors
import Verif.Props.Accessors
import Verif.Lemmas.Total16
import Verif.Spec.Covered
import Verif.Lemmas.Covered
import Verif.Props.Covered
import Verif.Spec.AnyFolder
import Verif.Lemmas.AnyFolder
import Verif.Props.AnyFolder
import Verif.Spec.Brightest
import Verif.Lemmas.Brightest
import Verif.Props.Brightest
import Verif.Spec.FileColours
import Verif.Props.FileColours
import Verif.Props.ClippedNested
import Verif.Spec.FilePair
import Verif.Props.FilePair
import Verif.Lemmas.Gaps
import Verif.Lemmas.GapPixels
import Verif.Props.TileSize
import Verif.Spec.Places
import Verif.Lemmas.FileTransfer
import Verif.Spec.OtherLayers
import Verif.Props.OtherLayers
import Verif.Spec.DrawnPixels
import Verif.Props.DrawnPixels
import Verif.Props.OutsidePixels
import Verif.Props.CoverageFiles
import Verif.Props.CoverageAnywhere
import Verif.Props.FallbackAdd
import Verif.Props.OutsideFiles
