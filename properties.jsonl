{"id": "C01", "title": "Header faithfulness", "statement": "DecodeConfig, given the PSD/PSB byte encoding of any valid configuration (version, channel count, width, height, depth, colour mode, colour mode data, image resources) followed by anything, returns exactly that configuration and a read count equal to the length of the encoding.", "quantifier": "every valid configuration, every list of image resources, every trailing byte string", "why_tests_cant": "the space of configurations and resource blocks is unbounded", "anchors": ["psd.go:DecodeConfig", "imageres.go:readImageResource", "util.go:readUint16", "util.go:readUint32"]}
{"id": "C02", "title": "Only valid headers are accepted", "statement": "Whenever DecodeConfig succeeds, the input began with the 8BPS signature and the returned configuration has version 1 or 2, 1..56 channels, width and height in 1..30000 (PSD) or 1..300000 (PSB), and depth 1, 8, 16 or 32; every other header yields an error.", "quantifier": "every byte string", "why_tests_cant": "tests can only sample malformed headers", "anchors": ["psd.go:DecodeConfig"]}
{"id": "C03", "title": "DecodeConfig never panics", "statement": "DecodeConfig on any byte stream, delivered by any reader, returns a configuration or an error and never panics.", "quantifier": "every byte string, every reader chunking and reader kind", "why_tests_cant": "crash inputs are adversarial; fuzzing only samples them", "anchors": ["psd.go:DecodeConfig", "imageres.go:readImageResource", "util.go:readPascalString", "util.go:adjustAlign2"]}
{"id": "C04", "title": "DecodeConfig is independent of reader chunking", "statement": "The result of DecodeConfig depends only on the bytes, not on how the reader splits them into Read calls, as long as every Read returns at least one byte.", "quantifier": "every byte string and every schedule of non-empty short reads", "why_tests_cant": "the set of read schedules is exponential in the input", "anchors": ["psd.go:DecodeConfig", "util.go:adjustAlign2", "util.go:discard"]}
{"id": "C05", "title": "Decode is independent of reader chunking", "statement": "The result of Decode depends only on the bytes, not on how the reader splits them into Read calls.", "quantifier": "every byte string and every schedule of non-empty short reads", "why_tests_cant": "the set of read schedules is exponential in the input", "anchors": ["psd.go:Decode", "layer.go:readLayerExtraData", "util.go:adjustAlign4"]}
{"id": "C06", "title": "Read count equals bytes consumed", "statement": "When DecodeConfig or Decode succeeds, the returned read count is exactly how far the reader's position advanced.", "quantifier": "every byte string, every options value, every reader kind and chunking", "why_tests_cant": "accounting must hold on every path through a dozen nested loops", "anchors": ["psd.go:Decode", "psd.go:DecodeConfig", "layer.go:readLayerAndMaskInfo", "layer.go:readAdditionalLayerInfo", "imageres.go:readImageResource"]}
{"id": "C07", "title": "Truncated files are rejected", "statement": "If Decode succeeds on a stream after consuming n bytes, then on any strictly shorter prefix of those n bytes Decode does not succeed, for readers that do not implement Seek (merged image not ZIP-compressed).", "quantifier": "every successful decode and every truncation point", "why_tests_cant": "every cut point of every file", "anchors": ["psd.go:Decode", "util.go:discard"]}
{"id": "C08", "title": "Bytes after the document are irrelevant", "statement": "If Decode succeeds after consuming n bytes, then replacing everything after those n bytes by any other bytes leaves the result unchanged (merged image not ZIP-compressed).", "quantifier": "every successful decode and every replacement suffix", "why_tests_cant": "suffixes are unbounded", "anchors": ["psd.go:Decode", "layer.go:readLayerAndMaskInfo"]}
{"id": "C09", "title": "Decode terminates", "statement": "Decode returns after finitely many steps on every input: every loop and the layer-info/additional-info recursion makes progress.", "quantifier": "every byte string, every reader schedule", "why_tests_cant": "non-termination cannot be observed by a finite test run", "anchors": ["psd.go:Decode", "layer.go:readAdditionalLayerInfo", "layer.go:readLayerInfo", "imageres.go:readImageResource"]}
{"id": "C10", "title": "Decode never panics", "statement": "Decode on any byte stream returns a document or an error and never panics.", "quantifier": "every byte string", "why_tests_cant": "crash inputs are adversarial; fuzzing only samples them", "anchors": ["psd.go:Decode", "layer.go:readSectionDividerSetting", "layer.go:readLayerImage", "util.go:readUnicodeString"]}
{"id": "C11", "title": "Result is independent of the reader kind", "statement": "Decoding the same bytes through a plain io.Reader, a Discarder (bufio) or a Seeker (file) gives the same result.", "quantifier": "every byte string, the three reader kinds", "why_tests_cant": "the kinds differ only on rare malformed inputs", "anchors": ["util.go:discard", "layer.go:readLayerAndMaskInfo"]}
{"id": "C12", "title": "Image resources are returned by ID", "statement": "After decoding the encoding of any list of image resources, Config.Res maps each ID to the last block with that ID, name and data intact, including odd lengths that need padding, and nothing else.", "quantifier": "every list of resource blocks", "why_tests_cant": "unbounded lists, every parity combination", "anchors": ["imageres.go:readImageResource", "util.go:readPascalString", "util.go:adjustAlign2"]}
{"id": "C13", "title": "PackBits decoding inverts every encoding", "statement": "For every image and every valid PackBits encoding of its rows (any split into literal runs, repeat runs and no-op bytes), RLE decoding produces exactly the image's bytes and consumes exactly the encoding.", "quantifier": "every row list, every valid encoding, PSD and PSB length tables", "why_tests_cant": "encodings are not unique and unbounded", "anchors": ["compress_other.go:decodePackBits", "compress_other.go:decodePackBitsPerLine", "compress.go:Decode"]}
{"id": "C14", "title": "PackBits decoding is memory safe", "statement": "On arbitrary compressed bytes and arbitrary row-length tables RLE decoding returns success or an error, never indexes outside its buffers, and never changes the size of the destination.", "quantifier": "every byte string, every length table, every destination size", "why_tests_cant": "adversarial inputs", "anchors": ["compress_other.go:decodePackBitsPerLine", "compress_other.go:decodePackBits"]}
{"id": "C15", "title": "PackBits result is independent of GOMAXPROCS", "statement": "The outcome and bytes of RLE decoding do not depend on how many goroutines the rows are divided over.", "quantifier": "every input, every worker count", "why_tests_cant": "depends on the machine and schedule", "anchors": ["compress_other.go:decodePackBits"]}
{"id": "C16", "title": "16-bit RLE data decodes like 8-bit", "statement": "For a 16- or 32-bit channel whose rows are correctly PackBits-encoded, RLE decoding succeeds with the channel's bytes whatever GOMAXPROCS is.", "quantifier": "every 16/32-bit channel, every worker count", "why_tests_cant": "depends on the machine", "anchors": ["compress.go:Decode", "compress_other.go:decodePackBits"]}
{"id": "C17", "title": "Platform implementations of PackBits agree", "statement": "The native, wasm and GopherJS implementations of RLE decoding give the same result for the same bytes.", "quantifier": "every input", "why_tests_cant": "the variants are built under different tags and never run in one test process", "anchors": ["compress_other.go", "compress_wasm_js.go", "compress_js.go", "compress.inc.js"]}
{"id": "C18", "title": "ZIP-with-prediction inverts the predictor", "statement": "For 16- and 32-bit data, undoing prediction on the horizontally differenced rows of any image restores the image exactly, row by row, including wrap-around.", "quantifier": "every image width, height and sample values", "why_tests_cant": "unbounded sizes, all wrap-around patterns", "anchors": ["compress.go:decodeDelta"]}
{"id": "C19", "title": "8-bit ZIP-with-prediction is undone", "statement": "For 8-bit data stored with ZIP prediction, decoding returns the original samples.", "quantifier": "every 8-bit image", "why_tests_cant": "format branch without a fixture", "anchors": ["compress.go:decodeDelta"]}
{"id": "C20", "title": "Raw decoding is exact", "statement": "Raw decoding fills the destination with exactly the next len(dest) bytes, or fails; it never succeeds having filled less.", "quantifier": "every stream, schedule and destination size", "why_tests_cant": "schedules unbounded", "anchors": ["compress.go:Decode"]}
{"id": "C21", "title": "Layer tree mirrors folder structure", "statement": "For every forest of layers and folders, flattening it the way PSD stores it (divider, children, folder record) and decoding gives back exactly that forest, in order.", "quantifier": "every forest of any depth and width", "why_tests_cant": "unbounded nesting", "anchors": ["layer.go:buildTree", "layer.go:readSectionDividerSetting"]}
{"id": "C22", "title": "Unmatched folder ends are rejected; unmatched dividers must not lose layers", "statement": "A layer list with a folder record lacking its divider is rejected with an error; and no successfully decoded document has lost layers.", "quantifier": "every layer list", "why_tests_cant": "every malformed nesting", "anchors": ["layer.go:buildTree"]}
{"id": "C23", "title": "Layers keep file order and unique SeqID", "statement": "SeqID of the i-th layer record is i; the layer tree, read depth-first, enumerates layers with strictly increasing SeqID.", "quantifier": "every layer list", "why_tests_cant": "unbounded", "anchors": ["layer.go:readLayerInfo", "layer.go:buildTree"]}
{"id": "C24", "title": "Layer record fields round-trip", "statement": "For every layer record (signed rectangle, channels, blend mode, opacity, clipping, flags, mask data, legacy name, extra blocks), whatever its blending ranges, the PSD/PSB encoding decodes to the same fields, and the methods of the layer and its mask (TransparencyProtected, Visible, HasImage, Folder, FolderIsOpen, Enabled, RealEnabled) say what the flags and the section divider of the record say.", "quantifier": "every layer record", "why_tests_cant": "product of many unbounded fields", "anchors": ["layer.go:readLayerInfo", "layer.go:readLayerExtraData", "layer.go:readLayerMaskAndAdjustmentLayerData"]}
{"id": "C25", "title": "Mask rectangles keep their sign", "statement": "Mask.Rect and Mask.RealRect decode signed 32-bit coordinates, so masks partly off-canvas keep their position.", "quantifier": "every mask rectangle", "why_tests_cant": "boundary of sign conversion", "anchors": ["layer.go:readLayerMaskAndAdjustmentLayerData"]}
{"id": "C26", "title": "Additional layer info blocks round-trip", "statement": "Every list of additional info blocks (8BIM/8B64, any keys, 4- or 8-byte lengths) with any zero padding between blocks decodes to the same key/data map and consumes the section exactly.", "quantifier": "every list of blocks and padding", "why_tests_cant": "unbounded", "anchors": ["layer.go:readAdditionalLayerInfo", "layer.go:LenSize"]}
{"id": "C27", "title": "Unicode names decode", "statement": "The layer's unicode name equals the UTF-16BE text stored in the luni block, for every text including surrogate pairs.", "quantifier": "every unicode string", "why_tests_cant": "unbounded", "anchors": ["util.go:readUnicodeString", "layer.go:readLayerInfo"]}
{"id": "C28", "title": "Channel data is paired with its rectangle and consumes exactly its declared length", "statement": "Each channel of each layer receives exactly the decoded samples of its own data block, sized by the layer's rectangle (or mask rectangle for channel -2/-3), and reading the layer's image advances by exactly the sum of the declared channel lengths.", "quantifier": "every layer and channel list", "why_tests_cant": "unbounded", "anchors": ["layer.go:readLayerImage"]}
{"id": "C29", "title": "SkipLayerImage changes no metadata", "statement": "Decoding with SkipLayerImage yields the same layer tree, names, rectangles, masks and extra info as decoding without it, minus channel pictures, for every well-formed document.", "quantifier": "every well-formed document", "why_tests_cant": "unbounded documents", "anchors": ["layer.go:readLayerInfo", "psd.go:Decode"]}
{"id": "C30", "title": "LayerImageLoaded is called once per layer in order", "statement": "With LayerImageLoaded set, a successful decode invokes it exactly once per layer with index 0,1,2,... and the right total.", "quantifier": "every document", "why_tests_cant": "history property", "anchors": ["layer.go:readLayerInfo"]}
{"id": "C31", "title": "PSD and PSB encodings of one document agree", "statement": "The same document written with 4-byte lengths (PSD) and 8-byte lengths (PSB) decodes to the same layers and picture.", "quantifier": "every document that fits both", "why_tests_cant": "unbounded", "anchors": ["layer.go:get4or8", "layer.go:LenSize", "psd.go:Decode"]}
{"id": "C32", "title": "Whole-document round trip", "statement": "For every well-formed document with raw, RLE or ZIP channel data, Decode of its encoding returns exactly that document and consumes it completely.", "quantifier": "every well-formed document", "why_tests_cant": "unbounded", "anchors": ["psd.go:Decode", "layer.go:readLayerAndMaskInfo"]}
{"id": "C33", "title": "Pixel addressing is in bounds and exact", "statement": "For every picture rectangle (including negative origins), channel depth 8/16/32 and every point inside it, At reads the sample stored for that column and row, never outside the plane, and distinct points read distinct samples.", "quantifier": "every rectangle and point", "why_tests_cant": "unbounded", "anchors": ["picker.go"]}
{"id": "C34", "title": "1-bit pixels use PSD bit order", "statement": "For bitmap documents, At(x,y) reads bit 7-(x mod 8) of byte (y*ceil(w/8)+x/8), in bounds, with 1 meaning black.", "quantifier": "every width, height and point", "why_tests_cant": "unbounded", "anchors": ["picker.go:pickerGray1"]}
{"id": "C35", "title": "Palette decoding is total on legal colour tables", "statement": "For an indexed document with a 768-byte colour table Palette returns the 256 RGB entries in order, with the transparent index given alpha 0, and never panics.", "quantifier": "every 768-byte table and resource", "why_tests_cant": "all tables", "anchors": ["psd.go:Palette"]}
{"id": "C36", "title": "Colours obey the alpha-premultiplied contract", "statement": "For every colour value of the package's integer colour types, RGBA() returns components in 0..65535 with r,g,b <= a and equals the exact integer formula (no 32-bit overflow).", "quantifier": "all values of each colour type", "why_tests_cant": "2^40 and more values", "anchors": ["color/color.go"]}
{"id": "C37", "title": "Colour model conversion is total and idempotent", "statement": "Converting any colour with a model of this package does not panic and converting twice equals converting once.", "quantifier": "every colour", "why_tests_cant": "domain is 2^64", "anchors": ["color/color.go:nGrayAModel", "color/color.go:nCMYKAModel"]}
{"id": "C38", "title": "8-bit blending never wraps", "statement": "For every blend mode, source pixel, destination pixel and opacity, the NRGBA-onto-NRGBA kernel's 32-bit arithmetic never overflows and never divides by zero; each result channel is the exact weighted mean of blended, source and backdrop colour and lies in 0..255.", "quantifier": "all 27 modes, all 2^72 pixel/opacity combinations", "why_tests_cant": "domain too large", "anchors": ["blend/zblends.go", "blend/util.go"]}
{"id": "C39", "title": "Division-free scaling is exact", "statement": "The multiply-shift used in place of division by 255 gives exactly floor(x*y/255) for all byte operands.", "quantifier": "all byte pairs", "why_tests_cant": "-", "anchors": ["blend/zblends.go"]}
{"id": "C40", "title": "Blend mode formulas", "statement": "Each separable blend mode computes its documented formula (multiply, screen, darken, lighten, dodge, burn, ...) on the 8-bit scale for every channel pair, and stays in range.", "quantifier": "all modes and channel pairs", "why_tests_cant": "formula identity over whole domain per mode", "anchors": ["blend/zblends.go"]}
{"id": "C41", "title": "Transparent source is a no-op", "statement": "Drawing a fully transparent source pixel, or drawing with zero opacity, leaves the destination bytes unchanged in every blend mode.", "quantifier": "all modes, all destinations", "why_tests_cant": "domain too large", "anchors": ["blend/zblends.go", "blend/draw.go"]}
{"id": "C42", "title": "Compositing alpha", "statement": "The composite alpha never decreases, reaches 255 exactly when backdrop or effective source is opaque, and is the union alpha up to rounding by one or two; on an opaque backdrop it stays 255.", "quantifier": "all pixels", "why_tests_cant": "domain too large", "anchors": ["blend/zblends.go"]}
{"id": "C43", "title": "Opaque normal paint replaces", "statement": "Normal mode at full opacity with an opaque source stores the source pixel exactly; onto a fully transparent destination any blend mode stores the source colour.", "quantifier": "all pixels", "why_tests_cant": "domain too large", "anchors": ["blend/zblends.go"]}
{"id": "C44", "title": "Non-separable modes are total", "statement": "Hue, Saturation, Color and Luminosity never divide by zero and return channels in 0..255; when no clipping is needed, the result's luminosity equals the target luminosity exactly.", "quantifier": "all colour pairs", "why_tests_cant": "2^48 pairs", "anchors": ["blend/util.go:setLum8", "blend/util.go:clipColor8", "blend/util.go:setSat"]}
{"id": "C45", "title": "16-bit blending never wraps", "statement": "For every mode, drawing onto or from RGBA images computes the documented 16-bit formula without 32-bit overflow.", "quantifier": "all modes and pixels", "why_tests_cant": "domain too large", "anchors": ["blend/zblends.go:drawAddRGBAToRGBA", "blend/zblends.go:drawSoftLightRGBAToRGBA"]}
{"id": "C46", "title": "Copy preserves pixels", "statement": "blend.Copy of an NRGBA image onto an NRGBA image reproduces the source pixels exactly.", "quantifier": "all pixels", "why_tests_cant": "domain too large", "anchors": ["blend/zporterduffs.go:drawCopyNRGBAToNRGBA"]}
{"id": "C47", "title": "Porter-Duff operators", "statement": "Each Porter-Duff operator's result alpha and premultiplied colour equals Fs*S + Fd*D with the operator's coverage factors, without 32-bit overflow, and never exceeds the 16-bit range.", "quantifier": "12 operators, all valid premultiplied pixels", "why_tests_cant": "domain too large", "anchors": ["blend/zporterduffs.go"]}
{"id": "C48", "title": "Drawing touches exactly the clipped rectangle", "statement": "A draw changes only pixels of dst inside r, dst's bounds and the source's bounds (and mask's) translated, and every such point is paired with the source point at the same offset. It never panics, whatever bytes the images hold.", "quantifier": "every rectangle, image bounds and offset", "why_tests_cant": "unbounded geometry", "anchors": ["blend/util.go:clip", "blend/draw.go:drawMask"]}
{"id": "C49", "title": "Parallel drawing equals serial drawing", "statement": "Splitting a draw over any number of goroutines covers every row exactly once and the result equals the serial result for every interleaving, when source and destination do not share memory.", "quantifier": "every size, worker count and interleaving", "why_tests_cant": "schedules", "anchors": ["blend/draw.go:Parallel"]}
{"id": "C50", "title": "Self-overlapping draws are well defined", "statement": "Drawing an image onto itself with overlapping rectangles behaves as if the source had been copied first.", "quantifier": "every overlap and worker count", "why_tests_cant": "schedules and geometry", "anchors": ["blend/util.go:processBackward", "blend/util.go:prepare4to4", "blend/draw.go:Parallel"]}
{"id": "C51", "title": "Tiling preserves every visible pixel", "statement": "Splitting a layer picture into tiles stores each non-transparent pixel in exactly one tile at the right place and no other pixel, for every layer position and tile size.", "quantifier": "every rectangle, tile size, worker count, picture", "why_tests_cant": "unbounded", "anchors": ["composite/layerimage.go:newTiledImage", "composite/layerimage.go:newTiledImageInner"]}
{"id": "C52", "title": "Mask tiles reproduce the mask", "statement": "Drawing with a layer's tiled mask multiplies alpha by the mask value inside the mask rectangle and by the default colour outside.", "quantifier": "every mask, default colour and pixel", "why_tests_cant": "unbounded", "anchors": ["composite/layerimage.go:newTiledMask", "composite/renderer.go:drawLayer"]}
{"id": "C53", "title": "Clipping groups bind to the layer below", "statement": "Every clipping layer is attached to the nearest non-clipping layer below it among its siblings; each base lists its clipping layers bottom-to-top; clipping layers with no base attach to nothing.", "quantifier": "every sibling list", "why_tests_cant": "unbounded lists", "anchors": ["composite/builder.go:registerClippingGroup"]}
{"id": "C54", "title": "Parent links of a new tree lead to the root", "statement": "In a tree returned by New every layer's Parent is the live folder that contains it, so climbing Parent reaches the root.", "quantifier": "every document", "why_tests_cant": "allocation-dependent aliasing", "anchors": ["composite/layer.go:New", "composite/builder.go:buildLayer"]}
{"id": "C55", "title": "Clone is an isolated isomorphic copy", "statement": "Clone copies the whole layer tree; every Parent, Clip and ClippedBy link of the copy points into the copy at the corresponding layer; no link leads back to the original.", "quantifier": "every tree with unique SeqIDs", "why_tests_cant": "unbounded trees, aliasing", "anchors": ["composite/cloner.go:Clone"]}
{"id": "C56", "title": "Cached rendering equals fresh rendering", "statement": "Rendering with any coherent cache contents gives the same picture as rendering with empty caches.", "quantifier": "every tree, tile and cache history", "why_tests_cant": "histories", "anchors": ["composite/renderer.go:drawLayer", "composite/renderer.go:updateTile"]}
{"id": "C57", "title": "Dirty marking invalidates everything affected", "statement": "After changing a layer and calling SetDirtyByLayer, no cached tile that depends on that layer remains.", "quantifier": "every tree, layer and cache state", "why_tests_cant": "histories", "anchors": ["composite/renderer.go:setDirtyByLayer"]}
{"id": "C58", "title": "Aborted renders leave the cache as before", "statement": "If Render is cancelled at any point, afterwards the set of cached tiles is exactly what it was before the call.", "quantifier": "every cancellation point and schedule", "why_tests_cant": "crash points", "anchors": ["composite/renderer.go:render", "composite/renderer.go:updateCache"]}
{"id": "C59", "title": "Dirty marks during a render are not lost", "statement": "SetDirtyByLayer calls made while a render runs take effect when it ends, so a later render reflects them, and none are applied mid-render.", "quantifier": "every interleaving of render and dirty calls", "why_tests_cant": "schedules", "anchors": ["composite/renderer.go:SetDirtyByLayer", "composite/renderer.go:render"]}
{"id": "C60", "title": "Pooled buffers are always blank", "statement": "Every work buffer handed out by the renderer is fully transparent, whatever was drawn into earlier buffers.", "quantifier": "every history of get/put", "why_tests_cant": "histories", "anchors": ["composite/renderer.go:getBuffer", "composite/renderer.go:putBuffer"]}
{"id": "C61", "title": "Wait returns only after all workers finished", "statement": "A parallel phase returns only after every worker has finished, reports abort if and only if cancellation was noticed, and never deadlocks.", "quantifier": "every interleaving of workers and cancellation", "why_tests_cant": "schedules", "anchors": ["composite/context.go:Wait"]}
{"id": "C62", "title": "Loading can be cancelled", "statement": "Cancelling the context passed to composite.New makes New return.", "quantifier": "every interleaving of decoder, workers and cancellation", "why_tests_cant": "schedules", "anchors": ["composite/layer.go:createCanvas", "composite/layer.go:createCanvasInner"]}
{"id": "C63", "title": "Thumbnail trimming keeps all content", "statement": "Trimming the unused border keeps every non-transparent pixel and yields the tight bounding box.", "quantifier": "every picture", "why_tests_cant": "unbounded", "anchors": ["composite/thumbnail.go:trimUnusedArea"]}
{"id": "C64", "title": "Thumbnail sheet cells are disjoint and inside", "statement": "In a thumbnail sheet every cell lies inside the sheet and no two cells overlap; the sheet side is the least power of two that fits all cells, and searching for it terminates.", "quantifier": "every count and size", "why_tests_cant": "unbounded", "anchors": ["composite/thumbnail.go:ThumbnailSheet"]}
{"id": "C65", "title": "Identity transform keeps rectangles", "statement": "Transforming a rectangle by the identity gives the same rectangle; by any affine map it contains the image of every pixel.", "quantifier": "every rectangle and affine map", "why_tests_cant": "unbounded", "anchors": ["composite/layer.go:transformRect"]}
{"id": "C66", "title": "Each tile is rendered by exactly one worker", "statement": "render hands every tile of the visible area to exactly one goroutine, for every worker count, so no tile is missed or raced.", "quantifier": "every area, tile size and worker count", "why_tests_cant": "schedules", "anchors": ["composite/renderer.go:render"]}
{"id": "C67", "title": "Blend mode names are unambiguous", "statement": "Distinct blend mode keys have distinct names, including unknown keys.", "quantifier": "every pair of 4-byte keys", "why_tests_cant": "2^64 pairs", "anchors": ["blendmode.go:String"]}
{"id": "C68", "title": "Numbers in messages are decimal", "statement": "The integer formatter used in error messages prints the decimal representation of every int.", "quantifier": "every 64-bit int", "why_tests_cant": "2^64 values", "anchors": ["util.go:itoa"]}
{"id": "C69", "title": "Rendering never meets an unsupported blend mode", "statement": "Rendering any decoded document never panics because of the blend mode stored in the file.", "quantifier": "every blend mode key", "why_tests_cant": "2^32 keys", "anchors": ["composite/draw.go:blendModes", "composite/builder.go:buildLayer"]}
{"id": "C70", "title": "Opaque colours survive conversion to CMYK", "statement": "Converting an opaque colour with the 16-bit CMYK model gives a colour with the same red, green, blue and alpha.", "quantifier": "every opaque colour", "why_tests_cant": "2^48 colours", "anchors": ["color/color.go:nCMYKA80Model", "color/color.go:NCMYKA80.RGBA"]}
{"id": "C71", "title": "Rendering only the differences is enough", "statement": "If every render is onto the picture of the previous one, RenderDiff leaves the same picture as Render, whatever was rendered, cancelled, marked dirty or changed before.", "quantifier": "every tree and every history of renders, cancellations, marks and changes", "why_tests_cant": "histories are unbounded", "anchors": ["composite/renderer.go:RenderDiff", "composite/renderer.go:renderInner"]}
{"id": "C72", "title": "Renders do not depend on the schedule", "statement": "However the goroutines of a render interleave and whatever GOMAXPROCS is, a render ends and leaves the picture and the caches that drawing the tiles one after another would leave; a cancelled one leaves those of some of the tiles.", "quantifier": "every tree, cache, number of processors, interleaving and moment of cancellation", "why_tests_cant": "interleavings are unbounded in number and not under a test's control", "anchors": ["composite/renderer.go:render", "composite/renderer.go:renderInner", "composite/renderer.go:updateTile", "composite/renderer.go:drawLayer", "composite/renderer.go:getBuffer"]}
{"id": "C73", "title": "Conversion to grey keeps the luminance", "statement": "Converting a colour to black and white, 8-bit grey or 16-bit grey gives the shade of its luminance (0.299 red + 0.587 green + 0.114 blue) and its alpha, up to the precision of the target.", "quantifier": "every colour", "why_tests_cant": "2^64 colours", "anchors": ["color/color.go:gray1Model", "color/color.go:nGrayAModel", "color/color.go:nGrayA32Model"]}
{"id": "C74", "title": "The package is a decoder of package image", "statement": "image.Decode recognises every document that Decode accepts; image.DecodeConfig returns the width, height and colour model of the picture image.Decode returns; and every pixel's colour belongs to the picture's colour model: converting it changes nothing.", "quantifier": "every input that can be decoded, every pixel", "why_tests_cant": "unbounded inputs", "anchors": ["psd.go:decode", "psd.go:decodeConfig", "psd.go:init", "picker.go:ColorModel"]}
{"id": "C75", "title": "Loaded pictures do not depend on the schedule", "statement": "When composite.New returns, each layer's picture and mask are stored under its SeqID and are those that loading this layer alone gives, whatever GOMAXPROCS and the interleaving of decoder and workers; loading ends.", "quantifier": "every document, number of goroutines and interleaving", "why_tests_cant": "interleavings are not under a test's control", "anchors": ["composite/layer.go:createCanvas", "composite/layer.go:createCanvasInner"]}
{"id": "C76", "title": "The loaded tree does not depend on the schedule", "statement": "Two calls of composite.New on one file give trees that agree in all fields, including Rect of the tree and of its layers.", "quantifier": "every document and interleaving", "why_tests_cant": "interleavings", "anchors": ["composite/layer.go:createCanvas", "composite/layer.go:createCanvasInner", "composite/layer.go:New", "layer.go:readLayerInfo"]}
{"id": "C77", "title": "Masks take effect after loading", "statement": "A layer mask that the file holds and that is not disabled is in effect in the tree that composite.New returns.", "quantifier": "every layer with a mask, every interleaving", "why_tests_cant": "unbounded masks, interleavings", "anchors": ["composite/layer.go:createCanvasInner", "composite/builder.go:buildLayer", "composite/layerimage.go:newScaledTiledMask"]}
{"id": "C78", "title": "Loading never panics", "statement": "composite.New on a document that Decode accepts never panics.", "quantifier": "every document that can be decoded, every interleaving", "why_tests_cant": "unbounded inputs", "anchors": ["composite/layer.go:createCanvasInner", "composite/layerimage.go:newTiledImageInner"]}
{"id": "C79", "title": "Loaded pixels are the layer's pixels", "statement": "After loading, for every bit depth that is accepted, the stored tiles show at every pixel the layer's colour there, and the mask's value.", "quantifier": "every document, pixel and interleaving", "why_tests_cant": "unbounded inputs", "anchors": ["composite/layer.go:createCanvasInner", "composite/layer.go:New"]}
{"id": "C80", "title": "The canvas keeps its size", "statement": "CanvasRect of a new tree is the canvas of the file, and Rect is the smallest rectangle around the rectangles of all layers, cut to it.", "quantifier": "every document", "why_tests_cant": "unbounded inputs", "anchors": ["composite/layer.go:New", "composite/layer.go:transformRect"]}
{"id": "C81", "title": "ConfigLoaded sees the configuration and decides", "statement": "The ConfigLoaded callback of Decode is given exactly what DecodeConfig returns for the same reader, the document Decode returns has that configuration, and if the callback returns an error Decode fails with it and returns no document.", "quantifier": "every input and callback", "why_tests_cant": "unbounded inputs", "anchors": ["psd.go:Decode", "psd.go:DecodeConfig"]}
{"id": "C82", "title": "A render shows the document", "statement": "The picture a first render of a document gives is that of the layers painted one over the other from the bottom up, each with its opacity, blend mode and mask, folders with what they contain and layers with what is clipped to them; tiles outside the rendered area are left alone.", "quantifier": "every document with known blend modes, pixels, masks, tiles, and every render (aborted or not)", "why_tests_cant": "unbounded documents", "anchors": ["composite/renderer.go:Render", "composite/renderer.go:drawLayer", "composite/layer.go:New"]}
{"id": "C83", "title": "Only what is seen matters", "statement": "The pixel a render gives depends on the layers' pixels and masks at this place only, and not on the colours of fully transparent pixels; whether a fully transparent part of a layer is stored makes no difference either.", "quantifier": "every document, every two sets of pixels that look the same at the place", "why_tests_cant": "unbounded documents and pixels", "anchors": ["composite/renderer.go:drawLayer", "blend/zblends.go", "blend/zporterduffs.go"]}
{"id": "C84", "title": "Hidden layers leave no trace", "statement": "Removing layers that are invisible or have opacity 0, with what they contain and what is clipped to them, does not change what a render gives.", "quantifier": "every document, every choice of hidden layers", "why_tests_cant": "unbounded documents", "anchors": ["composite/renderer.go:drawLayer"]}
{"id": "C85", "title": "Clipping layers stay inside their base", "statement": "Removing all clipping layers of a document does not change the transparency of any pixel of its render.", "quantifier": "every document and pixel", "why_tests_cant": "unbounded documents", "anchors": ["composite/renderer.go:drawLayer", "composite/renderer.go:removeAlpha"]}
{"id": "C86", "title": "Clipped layers are seen", "statement": "A layer clipped to another one is seen where both are opaque, whether or not \"Blend Clipped Layers as Group\" is on for the base.", "quantifier": "every document", "why_tests_cant": "unbounded documents", "anchors": ["composite/renderer.go:drawLayer"]}
{"id": "C87", "title": "Opaque layers cover what is below", "statement": "Where an ordinary layer in normal mode at full opacity without mask is opaque, the picture does not depend on the layers below it in the document or in its folder, nor on what is below this folder if the folder is a pass-through one or in normal mode, at full opacity without mask, and so on outwards; if it is the topmost layer, the picture has its pixels.", "quantifier": "every document, every such layer and pixel", "why_tests_cant": "unbounded documents", "anchors": ["composite/renderer.go:drawLayer", "blend/zblends.go"]}
{"id": "C88", "title": "Masks hide what they are black over and nothing else", "statement": "Where the mask of a layer or folder is black, the render is as if the layer, with what it contains and what is clipped to it, were not there; where it is white, as if it had no mask. The value of the mask at a pixel is that in the file, or the mask's default colour outside its rectangle.", "quantifier": "every document, every choice of masks, every pixel, every load schedule", "why_tests_cant": "unbounded documents and masks", "anchors": ["composite/renderer.go:drawLayer", "composite/layer.go:createCanvasInner", "composite/layerimage.go:newScaledTiledMask"]}
{"id": "C89", "title": "The topmost layer of a file is seen", "statement": "Loading a file and rendering it shows, at every pixel of the canvas where the topmost layer is opaque, that layer's colour in the file, if it is an ordinary layer in normal mode at full opacity without mask.", "quantifier": "every such file, pixel, number of goroutines and interleaving of loading", "why_tests_cant": "unbounded files; interleavings", "anchors": ["composite/layer.go:New", "composite/layer.go:createCanvas", "composite/renderer.go:Render"]}
{"id": "C90", "title": "The picture does not depend on the schedule of loading", "statement": "Loading a file twice and rendering both gives the same picture, however the decoder and the goroutines that load pictures were interleaved.", "quantifier": "every file, every two executions", "why_tests_cant": "interleavings", "anchors": ["composite/layer.go:New", "composite/layer.go:createCanvas", "composite/builder.go:buildLayer", "composite/renderer.go:Render"]}
{"id": "C91", "title": "Transforming by the identity changes nothing", "statement": "Tree.Transform by the identity matrix gives a tree with the same layers, pictures, masks and canvas, with any gamma.", "quantifier": "every tree, gamma, schedule", "why_tests_cant": "unbounded trees and pictures; interleavings", "anchors": ["composite/layer.go:Transform", "composite/layerimage.go:Transform", "composite/layerimage.go:newScaledTiledImage"]}
{"id": "C92", "title": "A transformed tree shows the interpolated pictures", "statement": "After Tree.Transform every layer has the pixels and the mask values that the interpolation of its old picture and mask gives, with gamma applied before and taken back afterwards, and no others; the result does not depend on the schedule, and the old tree is as before.", "quantifier": "every tree, matrix, gamma table, interpolation, schedule", "why_tests_cant": "unbounded pictures, all matrices; interleavings", "anchors": ["composite/layer.go:Transform", "composite/layerimage.go:Transform", "composite/layerimage.go:createImageGamma", "composite/layerimage.go:restoreGamma"]}
{"id": "C93", "title": "Loading with a matrix honours it", "statement": "New with Options.TransformMatrix loads every layer with the pixels that the interpolation of its picture in the file under that matrix gives; masks have their default colour where no point of the mask in the file comes.", "quantifier": "every layer, matrix, gamma table, interpolation", "why_tests_cant": "all matrices, unbounded pictures", "anchors": ["composite/layer.go:New", "composite/layer.go:createCanvasInner", "composite/layerimage.go:newScaledTiledImage", "composite/layerimage.go:newScaledTiledMask"]}
{"id": "C94", "title": "Thumbnails show the layer", "statement": "Thumbnail gives, for every layer with a pixel that is not fully transparent, the part of its picture that contains all of these pixels, scaled down in proportion to fit the size asked for, and nothing for other layers; Thumbnails gives the same for every layer of the tree, whatever the scheduling.", "quantifier": "every tree, size, number of goroutines, interleaving, and every algorithm for scaling down", "why_tests_cant": "unbounded pictures; interleavings", "anchors": ["composite/thumbnail.go:Thumbnail", "composite/thumbnail.go:Thumbnails", "composite/thumbnail.go:trimUnusedArea"]}
{"id": "C95", "title": "The sheet shows every thumbnail", "statement": "ThumbnailSheet gives a square sheet whose side is the least power of two that the thumbnails fit into (an error if 4096 is not enough), with a cell of its own for every thumbnail, which shows the thumbnail in its middle, and nothing outside of the cells.", "quantifier": "every tree and size", "why_tests_cant": "unbounded trees", "anchors": ["composite/thumbnail.go:ThumbnailSheet", "composite/thumbnail.go:thumbnailSheetInner"]}
{"id": "C96", "title": "Legacy names are decoded with one detected encoding", "statement": "If an encoding detector is given, New asks it once at most, with all the legacy names of the file in order, iff some layer has only a legacy name; all these layers get the name the detected encoding gives, the others their unicode name.", "quantifier": "every document, detector and encoding", "why_tests_cant": "unbounded documents", "anchors": ["composite/builder.go:buildLayer", "composite/builder.go:getLayerNameEncoding", "composite/builder.go:gatherLayerName", "composite/layer.go:New"]}
{"id": "C97", "title": "psdexporter exports every layer", "statement": "The command psdexporter writes, for every layer of the file that is not a folder, a file of its own with the picture of this layer, named after the layer's place in the tree, and touches no other file.", "quantifier": "every file, every layer tree", "why_tests_cant": "unbounded trees", "anchors": ["psdexporter/main.go:main", "psdexporter/main.go:processLayer", "layer.go:HasImage"]}
{"id": "C98", "title": "A clone is rendered like its original", "statement": "A first render of a clone gives the picture that a first render of its original gives, whatever attributes of the original's layers are changed after cloning; and whatever attributes of the clone's layers are changed, a first render of the original gives the picture it would have given before.", "quantifier": "every tree with known blend modes, pixels, masks, changes, and every render (aborted or not)", "why_tests_cant": "unbounded trees and changes", "anchors": ["composite/cloner.go:Clone", "composite/layer.go:Clone", "composite/renderer.go:Render"]}
{"id": "C99", "title": "How the reader reports the end does not matter", "statement": "Decode and DecodeConfig give the same whether the reader reports the end of the data along with the last bytes or by a further Read that delivers nothing, both of which io.Reader allows.", "quantifier": "every input, options, reader and split of the data into reads", "why_tests_cant": "all byte strings", "anchors": ["psd.go:Decode", "psd.go:DecodeConfig", "util.go:adjustAlign2", "util.go:adjustAlign4"]}
{"id": "C100", "title": "Only the contents of a file matter", "statement": "Two well-formed files with the same contents decode to the same values, the version number aside, and with the same progress calls, however they are written down: as PSD or PSB, with pictures stored raw, as RLE or as ZIP with or without prediction, with any padding, unused bytes, signatures and blending ranges, with a positive or negated layer count, and with the layers in the layer section or in an additional block.", "quantifier": "every pair of well-formed files with the same contents, every reader", "why_tests_cant": "all documents", "anchors": ["psd.go:Decode", "layer.go:readLayerAndMaskInfo", "layer.go:readLayerImage", "compress.go:CompressionMethod.Decode"]}
{"id": "C101", "title": "Prediction of 32-bit pictures is undone", "statement": "For 32-bit data stored with ZIP prediction as applications do it for floating point samples (the bytes of a row plane by plane, most significant first, then differenced byte by byte), decoding returns the original samples.", "quantifier": "every 32-bit image", "why_tests_cant": "every image width, height and sample values", "anchors": ["compress.go:decodeDelta"]}
{"id": "C102", "title": "From the bytes of a file to its picture", "statement": "composite.New on a well-formed 8-bit RGB file returns a tree without panicking or hanging, and rendering that tree shows, at every canvas pixel where the topmost layer is opaque in the file (and is an ordinary visible layer in normal mode at full opacity without mask), the red, green and blue the file stores for that pixel.", "quantifier": "every such file, however its pictures are compressed; every reader, number of processors and goroutines, tile size, interleaving, and render", "why_tests_cant": "all files; interleavings", "anchors": ["composite/layer.go:New", "composite/layer.go:createCanvas", "psd.go:Decode", "layer.go:readLayerImage", "composite/layerimage.go:newScaledTiledImage", "composite/renderer.go:Render"]}
{"id": "C103", "title": "The picture depends on the contents of the file only", "statement": "Two well-formed 8-bit RGB files with the same contents are loaded into trees that are rendered alike, however the files are written down (PSD or PSB, compression, padding), and however readers and goroutines are scheduled.", "quantifier": "every pair of such files, every reader, every two schedules", "why_tests_cant": "all files; interleavings", "anchors": ["composite/layer.go:New", "composite/layer.go:createCanvas", "psd.go:Decode", "composite/builder.go:buildLayer", "composite/renderer.go:Render"]}
{"id": "C104", "title": "The picture of a file, pixel by pixel", "statement": "composite.New on a well-formed 8-bit RGB file, followed by a first render, shows at every canvas pixel the result of painting the layers of the file (with their folders, clipping, blend modes, opacities and visibility) one over the other, each with the colour the file stores for the layer at that pixel and the value the file stores for its mask there, whatever the tile size, the reader, the scheduling and the compression.", "quantifier": "every such file, every pixel of the canvas; every reader, number of processors and goroutines, tile size, interleaving", "why_tests_cant": "all files; interleavings", "anchors": ["composite/layer.go:New", "composite/layer.go:createCanvas", "composite/layerimage.go:newScaledTiledImage", "composite/layerimage.go:newScaledTiledMask", "composite/builder.go:buildLayer", "composite/renderer.go:Render", "composite/draw.go:drawWithOpacity"]}
{"id": "C105", "title": "A file with plain layers shows them drawn one over the other", "statement": "For a well-formed 8-bit RGB file without folders, clipping layers and masks in effect, every pixel of the canvas of a first render is what drawing the file's colours at that pixel gives, from the bottom layer to the top, each with its blend mode and opacity, skipping hidden layers; it does not depend on the tile size.", "quantifier": "every such file, every pixel; every reader, number of processors and goroutines, tile size, interleaving", "why_tests_cant": "all files; interleavings", "anchors": ["composite/layer.go:New", "composite/renderer.go:Render", "composite/draw.go:drawWithOpacity", "blend/zblends.go"]}
{"id": "C106", "title": "Mask data of any length", "statement": "A layer's mask data block is read according to its length: the fields the block holds in full are reported, all others have their defaults (densities 255 if the block has flags, everything else zero), and whatever the length of the block, decoding goes on behind it, so that the rest of the record (blending ranges, name, additional information) is unaffected by it.", "quantifier": "every mask data block of every length, in every well-formed file; every reader", "why_tests_cant": "all byte strings", "anchors": ["layer.go:readLayerMaskAndAdjustmentLayerData", "layer.go:readLayerExtraData"]}
{"id": "C107", "title": "Compressed merged pictures are read", "statement": "A document whose merged picture is compressed with ZIP, with or without prediction (16- and 32-bit samples), is decoded like any other: Decode returns its picture, channels, layers and configuration, calls LayerImageLoaded as for any other document, reports how far the reader advanced, and leaves the reader at the end of the document.", "quantifier": "every well-formed document with a ZIP-compressed merged picture, every option value, every bytes after it, every reader kind and chunking (at least three bytes a read)", "why_tests_cant": "all files; all chunkings; what compress/zlib reads ahead", "anchors": ["psd.go:Decode", "compress.go:CompressionMethod.Decode", "compress.go:decodeZLIB"]}
{"id": "C108", "title": "SkipMergedImage changes the merged picture only", "statement": "If Decode succeeds, it succeeds with SkipMergedImage too and returns the same configuration, layers and additional information, without the merged picture, after the same progress calls; if it fails with SkipMergedImage it fails in the same way without. With the option, what is in the place of the merged picture does not matter: it may be compressed in any way, damaged or missing, and the reader is left where it begins.", "quantifier": "every input, every option value, every reader; for the last part every well-formed document and everything that can follow its layers", "why_tests_cant": "all byte strings", "anchors": ["psd.go:Decode", "psd.go:DecodeOptions", "layer.go:readLayerAndMaskInfo"]}
{"id": "C109", "title": "Setting LayerImageLoaded changes nothing but the calls", "statement": "Whatever Decode returns with LayerImageLoaded set, be it a document, an error or a panic, it returns without it, having read the same; without it no call is made; and the calls made for a file do not depend on what the callback was called with before (provided the callback itself leaves the layers alone).", "quantifier": "every input, every option value, every reader", "why_tests_cant": "all byte strings", "anchors": ["psd.go:DecodeOptions", "layer.go:readLayerImage"]}
{"id": "C110", "title": "Neutral colours", "statement": "Painting in the neutral colour of a blend mode (white for darken, multiply, colour burn, linear burn and divide; black for lighten, screen, colour dodge, linear dodge, add, difference, exclusion and subtract; 50% grey for overlay, soft light, hard light, linear light, vivid light and pin light) leaves every opaque backdrop as it is, whatever the alpha and the opacity of the paint.", "quantifier": "every mode with a neutral colour, every opaque backdrop pixel, alpha and opacity, RGBA and NRGBA images", "why_tests_cant": "all pixel values", "anchors": ["blend/zblends.go", "blend/genblend.go", "blend/draw.go"]}
{"id": "C111", "title": "Commutative blend modes", "statement": "In darken, multiply, linear burn, lighten, screen, linear dodge, add, difference and exclusion, exchanging two opaque layers changes nothing; overlay is hard light with the layers exchanged.", "quantifier": "all pairs of opaque pixels, RGBA and NRGBA images", "why_tests_cant": "all pixel values", "anchors": ["blend/zblends.go", "blend/genblend.go", "blend/draw.go"]}
{"id": "C112", "title": "Brighter layers give brighter pictures", "statement": "In every blend mode whose formula grows with the backdrop (all separable ones but difference and exclusion), brightening the backdrop never darkens a channel of the result; in every one whose formula grows with the source (nor subtract and divide), brightening the source never darkens it; whatever the alphas and the opacity.", "quantifier": "all separable modes, pixels, alphas and opacities, RGBA and NRGBA images", "why_tests_cant": "all pixel values", "anchors": ["blend/zblends.go", "blend/genblend.go", "blend/draw.go"]}
{"id": "C113", "title": "Blend modes on negatives", "statement": "Darken and lighten, multiply and screen, colour burn and colour dodge, linear burn and linear dodge are each other's mirror images: blending the negatives of two opaque pixels in the one gives the negative of blending the pixels in the other.", "quantifier": "all pairs of opaque pixels, RGBA and NRGBA images", "why_tests_cant": "all pixel values", "anchors": ["blend/zblends.go", "blend/genblend.go", "blend/draw.go"]}
{"id": "C114", "title": "Luminosity is kept or taken", "statement": "For opaque pixels, hue, saturation and colour leave the luminosity of the backdrop as it is and luminosity mode gives the picture the luminosity of the source, up to one level; painting grey in hue, saturation or colour gives exactly the grey of the backdrop's luminosity, and luminosity mode over grey gives exactly the grey of the source's.", "quantifier": "all pairs of opaque pixels, the four non-separable modes, NRGBA, RGBA and other images", "why_tests_cant": "all pixel values", "anchors": ["blend/zblends.go", "blend/genblend.go", "blend/util.go"]}
{"id": "C115", "title": "Colours of 32-bit pictures", "statement": "At of a 32-bit picture returns the colour whose components are the floating point numbers stored for the pixel. RGBA() of a colour with floating point components returns components of at most 65535 with r,g,b <= a: the levels that the amounts of light have with a gamma of 2.2, times the opacity, where light above 1 is shown as 1, light below 0 as 0, and alphas likewise.", "quantifier": "all values of the three floating point colour types, infinities and NaN included; every picture and pixel", "why_tests_cant": "all floating point values; every platform", "anchors": ["color/color.go:Gray32", "color/color.go:NGrayA64", "color/color.go:NRGBA128", "color/color.go:fromFloat", "picker.go:pickerNRGBA32", "picker.go:pickerNGrayA32", "picker.go:pickerGray32"]}
{"id": "C116", "title": "Conversion to 32-bit colours keeps the colour", "statement": "Converting a colour to 32-bit RGB gives a colour with the same red, green, blue and alpha, and to 32-bit grey one with its luminance, up to one level of 65535.", "quantifier": "every colour that meets the contract of image/color", "why_tests_cant": "all colours", "anchors": ["color/color.go:Gray32Model", "color/color.go:NGrayA64Model", "color/color.go:NRGBA128Model", "color/color.go:toFloat"]}
{"id": "C117", "title": "Gamma is taken back", "statement": "With a gamma set, a layer's colours are converted to linear light before interpolation and back after it, which by itself changes no colour: where interpolation takes a pixel as it is (as when a document is moved by whole pixels), an opaque pixel keeps its colour.", "quantifier": "every colour level, every gamma above 0; every layer, every whole-pixel move, tile size and number of processors", "why_tests_cant": "all gammas; floating point tables cannot be enumerated over all gammas", "anchors": ["composite/layerimage.go:makeGammaTable", "composite/layerimage.go:createImageGamma", "composite/layerimage.go:restoreGamma", "composite/layerimage.go:newScaledTiledImage"]}
{"id": "C118", "title": "Pass-through folders only hold layers together", "statement": "A pass-through folder that is visible at full opacity, has no mask in effect and nothing clipped to it can be dissolved: the document with the folder's contents in its place renders to the same picture.", "quantifier": "every document, folder, place and contents, all pixels", "why_tests_cant": "all documents; every pixel value", "anchors": ["composite/renderer.go", "composite/draw.go", "composite/builder.go"]}
{"id": "C119", "title": "Darkening modes darken, lightening modes lighten", "statement": "Drawing over an opaque backdrop in a darkening mode (darken, multiply, color burn, linear burn, subtract) brightens no channel, in a lightening mode (lighten, screen, color dodge, linear dodge, add, divide) darkens none, whatever the source and the opacity. In a contrast mode (overlay, soft light, hard light, linear light, vivid light, pin light) a source darker than 50% grey brightens no channel and any other source darkens none. So a layer or folder in a darkening mode on top of a document with an opaque background brightens no pixel of the rendered picture, with whatever is clipped to it.", "quantifier": "all sources, backdrops, opacities; all documents; NRGBA, RGBA and other images", "why_tests_cant": "all pixel values; all documents", "anchors": ["blend/zblends.go", "blend/genblend.go", "blend/util.go", "composite/draw.go", "composite/renderer.go"]}
{"id": "C120", "title": "Normal mode mixes", "statement": "What normal mode draws has each channel between those of the source and the backdrop: no colour is made that is brighter or darker than both. Over an opaque backdrop of the source's own colour it changes nothing.", "quantifier": "all sources, backdrops, opacities", "why_tests_cant": "all pixel values", "anchors": ["blend/zblends.go", "blend/genblend.go", "blend/util.go"]}
{"id": "C121", "title": "Order matters only where layers overlap", "statement": "Layers that have nothing at a pixel, with what is clipped to them, could as well be missing from the document for this pixel. So neighbouring layers (or folders, or groups of them) can be exchanged without changing any pixel at which only one of them has something.", "quantifier": "every document, layers at any place of it, all pixels", "why_tests_cant": "all documents; every pixel value", "anchors": ["composite/renderer.go", "composite/draw.go", "composite/builder.go"]}
{"id": "C122", "title": "An edited tree shows the edited document", "statement": "After layers of a tree have been shown, hidden or otherwise edited and marked dirty, Render shows what loading and rendering a document with the same edits would show, whatever was rendered, cancelled, edited and marked before.", "quantifier": "every document, every history of renders, cancellations, edits and marks, every layer", "why_tests_cant": "all documents and histories", "anchors": ["composite/renderer.go", "composite/layer.go", "composite/cloner.go", "composite/builder.go"]}
{"id": "C123", "title": "Rendering again shows the same", "statement": "As long as the tree is not changed, Render shows in every tile exactly what a new renderer would show, whatever was rendered and cancelled before and whatever layers without pixels in this tile were marked dirty, also partly transparent pixels in folders, which marks would change.", "quantifier": "every tree, picture, mask and blend mode, every tile, every history of renders, cancellations and marks", "why_tests_cant": "all trees and histories", "anchors": ["composite/renderer.go"]}
{"id": "C124", "title": "A folder shows what its contents look like", "statement": "If two sets of layers, each rendered as a document of its own, show the same colour at a pixel, then documents that differ only in having the ones or the others in a folder that is not pass-through, at any depth, show the same colour there, whatever the folder's mode, opacity, mask and clipped layers are.", "quantifier": "every two sets of layers, every document around them, all pixels", "why_tests_cant": "all documents; every pixel value", "anchors": ["composite/renderer.go", "composite/draw.go", "composite/builder.go"]}
{"id": "C125", "title": "Working on a file shows the edited file", "statement": "After a well-formed 8-bit RGB file is loaded and its layers are rendered, cancelled, shown, hidden, faded, given another blend mode and marked dirty, as often as one likes, Render shows at every pixel the colours of the file's layers drawn over each other with the visibility, opacity and blend mode they have then; and every such change can be made.", "quantifier": "every file, every schedule of loading, every history of renders, cancellations, changes and marks, all pixels", "why_tests_cant": "all files, schedules and histories", "anchors": ["composite/layer.go", "composite/renderer.go", "composite/cloner.go", "composite/builder.go", "layer.go"]}
{"id": "C126", "title": "Caching keeps transparency", "statement": "Whatever was rendered, cancelled and marked dirty before, Render makes every pixel exactly as opaque as a new renderer would, though colours of partly transparent pixels may differ. While layers of a clone are shown, hidden, faded or given another blend mode (a folder must not stop being pass-through around pass-through folders) and marked dirty, every pixel stays exactly as opaque as in the document with these changes.", "quantifier": "every tree, picture, mask and blend mode, every history of renders, cancellations, changes and marks, all pixels", "why_tests_cant": "all trees and histories; every pixel value", "anchors": ["composite/renderer.go", "composite/draw.go", "composite/cloner.go", "blend/zblends.go"]}
{"id": "C127", "title": "Colours have no influence on transparency", "statement": "How opaque a pixel of the rendered picture is depends on how opaque the layers and masks are there, on the opacities, visibility and arrangement of the layers and on which folders are pass-through, but not on the colours and blend modes of the layers.", "quantifier": "every two documents that differ in colours and blend modes, all pixels", "why_tests_cant": "all documents; every pixel value", "anchors": ["composite/renderer.go", "composite/draw.go", "blend/zblends.go"]}
{"id": "C128", "title": "Brightening layers never darkens the picture", "statement": "In a document whose blend modes all grow by their formula both with the layer and with what is below it (that is, all separable modes but difference, exclusion, subtract and divide), with whatever folders, pass-through folders, clipping groups, masks and opacities: if the pixels of some layers are made brighter without changing how opaque they are, no channel of any pixel of the picture gets darker, and the picture stays as opaque.", "quantifier": "every document with such modes, every two sets of layer pixels of which one is nowhere brighter than the other, every set of masks, every tile and pixel", "why_tests_cant": "a rounding error or an overflow in one mode at one combination of values, alphas and opacities makes a brighter layer give a darker pixel; the combinations cannot be enumerated", "anchors": ["composite/renderer.go", "composite/draw.go", "blend/zblends.go", "blend/zporterduffs.go"]}
{"id": "C129", "title": "Colour channels do not mix", "statement": "In a document whose blend modes are separable, each colour channel of the picture depends on that channel of the layers and on their opacity alone: two files with the same layers, folders and masks, whose layers agree in red (and are as opaque), give pictures that agree in red. More generally, what one channel of the layers becomes, another channel with the same values becomes too, so exchanging channels in all layers exchanges them in the picture.", "quantifier": "every document in separable modes, every pair of channels, every two sets of layer pixels that agree in them, every set of masks, every tile and pixel", "why_tests_cant": "a swapped channel in one mode, in one Porter-Duff operator, in a mask or in a copy would only show for certain colours", "anchors": ["composite/renderer.go", "composite/draw.go", "blend/zblends.go", "blend/zporterduffs.go"]}
{"id": "C130", "title": "Grey layers make a grey picture", "statement": "If at a pixel every layer is grey (or fully transparent), the picture is grey there, in all blend modes including those built on hue, saturation and luminosity, and with whatever folders, clipping, masks and opacities.", "quantifier": "every document in known modes, every set of grey layer pixels, every set of masks, every tile and pixel", "why_tests_cant": "the non-separable modes compute the channels in different expressions with divisions; a tint would only show at certain values", "anchors": ["composite/renderer.go", "composite/draw.go", "blend/zblends.go", "blend/zporterduffs.go"]}
{"id": "C131", "title": "The negative of a document gives the negative of the picture", "statement": "If all layers are at full opacity and every pixel of the layers and masks is opaque or fully transparent, then inverting the colours of all layers and exchanging darken with lighten, multiply with screen, colour burn with colour dodge and linear burn with linear dodge (normal stays) gives exactly the inverted picture, with whatever folders, pass-through folders and clipping groups.", "quantifier": "every such document, every set of layer pixels with hard edges, every set of masks, every tile and pixel", "why_tests_cant": "one mode rounding towards a different side than its partner would break it at a few of the values only", "anchors": ["composite/renderer.go", "composite/draw.go", "blend/zblends.go", "blend/zporterduffs.go"]}
{"id": "C132", "title": "Layers that cover more never uncover the picture", "statement": "If no layer is less opaque at a pixel in one file than in another that is otherwise the same, the rendered picture is not less opaque there either.", "quantifier": "every document, every two sets of layer pixels, all pixels", "why_tests_cant": "The claim is about every pair of stacks of layers; the rounding errors that break it are one level high and depend on the alphas.", "anchors": ["composite/renderer.go", "composite/draw.go", "blend/zblends.go", "blend/zporterduffs.go"]}
{"id": "C133", "title": "The picture is not brighter than its brightest layer", "statement": "In a document whose blend modes never give more than the brighter of layer and backdrop (normal, darken, multiply, colour burn, linear burn, subtract, lighten, pin light, difference, darker colour and lighter colour), with whatever folders, pass-through folders, clipping groups, masks and opacities, each channel of a pixel of the rendered picture is at most the largest value this channel has in the layers that have something there.", "quantifier": "every document in such modes, every set of layer pixels and masks, each channel, all pixels", "why_tests_cant": "Every copy, mask and blend divides by a rounded alpha, and a quotient can come out one level too high for a few combinations of alphas and colours; only a proof about all of them, and about all nestings, settles it.", "anchors": ["composite/renderer.go", "composite/draw.go", "blend/zblends.go", "blend/zporterduffs.go"]}
{"id": "C134", "title": "A grey file shows a grey picture", "statement": "Decode and load a well-formed 8-bit RGB file whose layers are in one section, have red, green and blue, and are in known blend modes, and render it: wherever the colours of all layers of the file are grey, the picture is grey, whatever the folders, clipping, masks, opacities and blend modes of the file, the way a reader hands out its bytes, the compression of its channels, the number of processors and goroutines, the tile size and the schedule.", "quantifier": "every such file, every reader, tile size, number of processors and schedule, every pixel", "why_tests_cant": "It joins decoding, decompression, loading in goroutines and painting: a wrong channel order in one of them, for one compression or in one schedule, would only show in files that use it.", "anchors": ["psd.go:Decode", "layer.go:readLayerImage", "composite/layer.go:New", "composite/builder.go", "composite/renderer.go", "blend/zblends.go", "blend/zporterduffs.go"]}
{"id": "C135", "title": "The tile size makes no difference to the picture", "statement": "composite.Options.TileSize is about speed and memory only: an 8-bit RGB file loaded and rendered for the first time with two tile sizes shows the same pixel everywhere, although with other tiles other layers, masks and folders have nothing in the tile of a pixel and are left out there.", "quantifier": "every such file, every pair of tile sizes, every reader, number of processors and schedule, every pixel", "why_tests_cant": "What a renderer leaves out depends on where the edges of layers fall in the grid of tiles; tests use one tile size, and a difference would show only at pixels in tiles of which a layer covers another part.", "anchors": ["composite/layer.go:Options", "composite/layer.go:New", "composite/builder.go", "composite/renderer.go", "composite/draw.go"]}
{"id": "C136", "title": "The picture at a pixel depends only on the layers at that pixel", "statement": "Moving all layers of a file, with their masks, moves the rendered picture and changes nothing else; and two files whose layers have the same settings and the same colours and mask values at a pixel show the same pixel there, whatever their layers are elsewhere.", "quantifier": "every pair of 8-bit RGB files, every two places, every pair of tile sizes, every reader, number of processors and schedule", "why_tests_cant": "Layers, masks and folders that have nothing in a tile are left out, so what a pixel shows could depend on its neighbours in the tile; a difference shows only at pixels in tiles of which a layer covers another part.", "anchors": ["composite/layer.go:New", "composite/builder.go", "composite/renderer.go", "composite/draw.go"]}
{"id": "C137", "title": "The types of images make no difference to the Porter-Duff operators", "statement": "Drawing with a Porter-Duff operator changes a destination in the same way whatever Go types the two images have: wrapping the destination or the source in a type of one's own, with the same bounds and pixels, makes no difference to the bytes drawn.", "quantifier": "12 operators, every source, destination, rectangle and offset, all pixels that obey the contract of their type, every number of processors and schedule", "why_tests_cant": "The package picks one of nine kernels by the types of the images; tests compare some of them on two pictures, within a tolerance.", "anchors": ["blend/draw.go:drawMask", "blend/zporterduffs.go"]}
{"id": "C138", "title": "A pixel outside of a picture has no colour", "statement": "Asking a picture of a file for the colour of a point outside of its bounds, as Go code does that reads the neighbours of a pixel, returns a transparent or black pixel as Go's own images do: it does not panic and does not return a pixel from elsewhere in the picture.", "quantifier": "every picture of complete planes of 8-, 16- or 32-bit samples, of palette indices or of bits, of every size and place, every point of the plane", "why_tests_cant": "There are infinitely many points outside; a test that asks for one sees one of several behaviours, which depend on which side of the picture the point is and on the row.", "anchors": ["picker.go:At"]}
