import Verif.Lemmas.Image
import Verif.Lemmas.Mem
import Verif.Lemmas.Geometry
import Verif.Props.Geometry
import Verif.Lemmas.Gray
import Verif.Lemmas.Hist
import Verif.Lemmas.Stretch
import Verif.Props.Gray
import Verif.Model.Color
import Verif.Spec.Color
import Verif.Props.Color
import Verif.Lemmas.Morph
import Verif.Props.Morph
import Verif.Core.Float
import Verif.Lemmas.Trim
import Verif.Props.Trim
import Verif.Props.Draw
import Verif.Props.Histogram
import Verif.Props.Exif
import Verif.Props.Watershed
import Verif.Props.Peaks
import Verif.Props.Otsu
import Verif.Props.Orient
import Verif.Props.Colors
import Verif.Props.Blur
import Verif.Props.Resize
import Verif.Props.Sobel
import Verif.Props.BwSmart
import Verif.Props.Foerstner
import Verif.Props.Perspective
import Verif.Props.Warp
import Verif.Props.Sort
import Verif.Props.Detect
import Verif.Props.CliGeometry
import Verif.Props.CliParse
import Verif.Props.Tidy
import Verif.Props.TidyDetect
import Verif.Props.Invalid
import Verif.Props.CliHeap
import Verif.Props.CliMain
import Verif.Props.CliShape
import Verif.Props.CliMeaning
import Verif.Props.CliWhole
import Verif.Props.CliResize
import Verif.Props.CliOps
import Verif.Model.Bindings
import Verif.Spec.Bindings
import Verif.Lemmas.Bindings
import Verif.Props.Bindings
import Verif.Spec.Extract
import Verif.Lemmas.Extract
import Verif.Props.Extract
import Verif.Spec.Png
import Verif.Model.Png
import Verif.Lemmas.PngBits
import Verif.Lemmas.PngDeflate
import Verif.Lemmas.PngZlib
import Verif.Lemmas.PngCrc
import Verif.Lemmas.PngFilter
import Verif.Lemmas.Png
import Verif.Props.Png
import Verif.Props.PngMain
import Verif.Spec.Huffman
import Verif.Spec.Inflate
import Verif.Model.Inflate
import Verif.Lemmas.InflateBits
import Verif.Lemmas.InflateCanon
import Verif.Lemmas.InflateHuff
import Verif.Lemmas.InflateStream
import Verif.Lemmas.InflateRead
import Verif.Lemmas.InflateOut
import Verif.Lemmas.InflateBlock
import Verif.Lemmas.InflateDyn
import Verif.Lemmas.InflateTables
import Verif.Lemmas.InflateStored
import Verif.Lemmas.InflateZlib
import Verif.Lemmas.InflateFixed
import Verif.Props.Inflate
import Verif.Model.PngLoad
import Verif.Spec.PngDecode
import Verif.Lemmas.PngUnfilter
import Verif.Lemmas.PngExpand
import Verif.Lemmas.PngRaw
import Verif.Lemmas.PngPass
import Verif.Lemmas.PngColour
import Verif.Lemmas.PngFinish
import Verif.Lemmas.PngCtx
import Verif.Lemmas.PngChunk
import Verif.Lemmas.PngParse
import Verif.Lemmas.PngValid
import Verif.Lemmas.PngMeaning
import Verif.Lemmas.PngBack
import Verif.Lemmas.PngOutcome
import Verif.Props.PngLoad
import Verif.Props.PngWhole
import Verif.Model.Jpeg
import Verif.Spec.Jpeg
import Verif.Lemmas.JpegBits
import Verif.Lemmas.JpegCode
import Verif.Lemmas.JpegBlock
import Verif.Lemmas.JpegTrig
import Verif.Lemmas.JpegDct
import Verif.Lemmas.JpegPlace
import Verif.Lemmas.JpegQuant
import Verif.Lemmas.JpegSamples
import Verif.Lemmas.JpegScan
import Verif.Lemmas.JpegFile
import Verif.Lemmas.JpegInverse
import Verif.Props.Jpeg
import Verif.Props.JpegMain
import Verif.Model.JpegKernel
import Verif.Spec.JpegPixel
import Verif.Lemmas.JpegIdct
import Verif.Lemmas.JpegAccuracy
import Verif.Lemmas.JpegUp
import Verif.Props.JpegKernel
import Verif.Model.JpegLoad
import Verif.Lemmas.JpegEnt
import Verif.Lemmas.JpegHuff
import Verif.Lemmas.JpegDecBlock
import Verif.Lemmas.JpegTables
import Verif.Lemmas.JpegReadScan
import Verif.Lemmas.JpegHead
import Verif.Lemmas.JpegFileRead
import Verif.Lemmas.JpegPixels
import Verif.Lemmas.JpegLoadFile
import Verif.Lemmas.JpegWritten
import Verif.Lemmas.JpegFlat
import Verif.Props.JpegLoad
import Verif.Props.JpegAgain
import Verif.Lemmas.JpegSafeBits
import Verif.Lemmas.JpegSafeHuff
import Verif.Lemmas.JpegSafeBlock
import Verif.Lemmas.JpegSafeHead
import Verif.Lemmas.JpegSafeScan
import Verif.Lemmas.JpegSafePixels
import Verif.Props.JpegCorrupt
import Verif.Model.JpegProg
import Verif.Lemmas.JpegSafeProg
import Verif.Lemmas.JpegSafeProgScan
import Verif.Props.JpegProg
import Verif.Spec.JpegProg
import Verif.Lemmas.JpegRefine
import Verif.Lemmas.JpegFirst
import Verif.Lemmas.JpegBand
import Verif.Lemmas.JpegFinish
import Verif.Lemmas.JpegDcScan
import Verif.Lemmas.JpegDcLoop
import Verif.Props.JpegRefine
import Verif.Props.JpegBand
import Verif.Props.JpegFinish
import Verif.Props.JpegDcScan
import Verif.Model.Pnm
import Verif.Spec.Pnm
import Verif.Lemmas.PnmSafe
import Verif.Lemmas.PnmHead
import Verif.Props.Pnm
import Verif.Props.PnmMain
import Verif.Model.ImageFormat
import Verif.Props.ImageFormat
import Verif.Props.RefusedMain
import Verif.Props.AnyFile
import Verif.Props.Convert
