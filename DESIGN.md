# Design: a Lean 4 model of oov/psd

## Shape of the development

* `lean/Verif/Model/*` – executable, total definitions, one per Go function, each with a
  comment citing the file and lines in /repo.
* `lean/Verif/Spec/*` – small independent specifications (encoders, reference formulas,
  reference geometry, painting without caches). They do not use the model's helpers.
* `lean/Verif/Lemmas/*` – helper lemmas.
* `lean/Verif/Props/*` – the property theorems `C01_…`, each followed by a concrete
  `example` showing its hypotheses are met by a non-trivial case.

Conventions of the model

* A Go function that can fail returns `Res α = ok a | err e | panic p | fuel`. A panic stands for
  a Go run-time panic: index/slice out of range, nil dereference, negative or huge `make`,
  integer division by zero. `fuel` is the model's own bound of a loop; C09 proves it is never
  the result.
* Wide integers are `Nat`/`Int` with the Go wrap-around written out (`% 2^32`, …) wherever the
  code can wrap or where a property is about wrap.
* `io.Reader` is data + position + a *schedule* of how many bytes each `Read` call delivers +
  the kind of the reader (plain, Discarder, Seeker) + the error reported at the end of the data.
  `io.ReadFull` is a loop over `Read`.
* Loops become structural recursion, or fuel recursion with a theorem that the fuel computed
  from the input is never exhausted.
* Goroutines are trees of single actions (memory accesses, map accesses, pool and lock
  operations) and an execution is any interleaving of them; or transition systems where only the
  synchronisation matters.
* `append` on layer slices may or may not move the array: the layer tree lives on a heap and the
  growth of slices is a parameter all theorems quantify over.

## Trusted base

* Lean 4.33.0's kernel; the axioms `propext`, `Classical.choice`, `Quot.sound` at most (table
  below). No axioms of our own, no `sorry`, no `native_decide`, no `bv_decide`. Finite tables are
  settled by `decide +kernel`, which the kernel evaluates itself; where that is used in a proof it
  ranges over the whole domain (for example all pairs of bytes) and is lifted by a lemma.
* The reading of the Go source by the author of the model: nothing ties the model to the code but
  the citations.
* The specifications in `Verif/Spec`.
* The parts of Go that are modelled from their documentation: `io.ReadFull`, `bufio`-free readers,
  `image.Rectangle`, slices, maps, `sync.Pool`, `sync.WaitGroup`, mutexes, channels, `context`.

## What is modelled

| file in /repo | in the model | not in the model |
|---|---|---|
| psd.go | LenSize, PSB, Palette, makePicker, DecodeConfig, Decode, the registration with package image | debug logging; formats registered by other packages |
| imageres.go | everything | names of resources are skipped, as in the code |
| layer.go | everything | `Layer.String`, debug logging |
| colormode.go, blendmode.go | everything | – |
| compress.go, compress_other.go, compress_js.go, compress_wasm_js.go | all four decoders, ZIP with and without prediction, the split over goroutines | inflate itself: a parameter that maps the compressed bytes to the inflated ones or fails |
| picker.go | choice of the picker, setSource, At, ColorModel and Bounds of every picker | the colour types of the standard library, which At returns for some pickers, are known by their samples only |
| util.go | everything | `reportReaderPosition` (debugging aid) |
| color/color.go | all types and models | `math.Pow`, rounding and out-of-range conversions are parameters (`Floats`), with what is assumed of them in `Floats.Faithful` (Spec/FloatColor.lean), which exact arithmetic satisfies |
| blend/draw.go, blend/util.go | clip, drawMask, Parallel, processBackward, prepare4to4, prepare1to4, all arithmetic helpers in use; lum16, lum16f, setLum16, clipColor16 and clamp16f with rational numbers rounded to 53 bits (Model/Float64) | helpers no kernel uses (`clip0`, `clip8`) |
| blend/zblends.go, zporterduffs.go (generated by genblend.go, genporterduff.go) | the pixel kernels of the 27 blend modes and 12 operators, for RGBA, NRGBA, Alpha, Uniform and other (fallback) images | code that differs only in the offsets of the loop |
| blend/zdivtable.go, zrgba2nrgbatable.go | – | tables used by the assembly below only, or by nothing |
| blend/decl_amd64.go and the assembly | – | not called by anything in the repository |
| composite/builder.go, cloner.go | everything; the encoding of names and its detector are parameters | the log message |
| composite/context.go | Wait, SetAbort, Aborted, Done | – |
| composite/draw.go | the table of drawers, drawWithOpacity, removeAlpha | – |
| composite/layer.go | New, transformRect, createCanvas, createCanvasInner, Transform | `draw.BiLinear` (a parameter) |
| composite/layerimage.go | Get, newTiledImage, newTiledMask, Render, renderInner, Transform, createImage, createImageGamma, restoreGamma, newScaledTiledImage, newScaledTiledMask, makeGammaTable (Model/Gamma, with real numbers) | `draw.BiLinear`, rounding and `math.Pow`, all parameters (what is assumed of them is in Spec/Resample and Spec/Gamma) |
| composite/renderer.go | everything | – |
| composite/thumbnail.go | everything | `downscale` (another module, a parameter) |
| psdexporter/main.go | everything | `os.Create` and `png.Encode` (parameters), what it prints, the command line |

## Simplifications

* Coordinates, strides and offsets are unbounded integers; Go's are 64 bits wide. File sizes are
  bounded explicitly (8 GiB) where an allocation could fail.
* `math.Sqrt` in soft light is the integer square root; Model/Sqrt64.lean is the code's expression in floating point, and
  `C40_square_root` shows that the two agree.
* The luminosity arithmetic of the 16-bit kernels is a parameter (`FloatLum`) of their model, and the theorems hold for
  every value of it; C114 takes the code's (`float64Lum`, Model/Float64.lean), which computes with rational numbers and
  rounds them to 53 bits after each operation, as amd64 does.
* `transformRect` computes with rational numbers. Model/Transform64.lean is the same in 64-bit floating point;
  `C65_float_exact` shows that the two agree for matrices with at most 16 binary places (moves, mirror images, quarter
  turns, scaling by halves), `C65_contains_float_partial` what holds for all others.
* Memory is sequentially consistent. Go promises that only for programs without data races; the
  theorems about several goroutines show that no two of them touch the same byte, array or map
  entry (C49, C60, C72), except for the one counterexample C50, which needs no more than an
  interleaving.
* The renderer works on pictures given by an abstract algebra `PicOps` (draw, copy, mask, clear)
  with the laws proved for the real kernels stated as hypotheses where needed; it is modelled one
  tile at a time (`Model/Renderer.lean`), and `C72_schedules_agree` proves that every
  interleaving of the goroutines of `Model/Buffers.lean` ends with what the tile-at-a-time model
  computes.
* In the goroutine model of the renderer a drawing operation reads and writes whole buffers in one
  action; `C60_one_owner` shows that a buffer is in use by one goroutine at a time.
* `sync.Pool` may hand out any array that was returned to it, or a new one.
* Opacities are natural numbers.
* Source images of types other than RGBA, NRGBA, Alpha, Uniform are given by their `At` function
  (`AbsImg`) with colours that are valid premultiplied ones (`AbsImg.Ok`).

## Plan per property

| id | modelled | proof |
|----|----------|-------|
| C01 | DecodeConfig, readImageResource over the reader model; spec encoder of headers | round trip by computation on the 26/30 byte header and induction on the resource list |
| C02 | DecodeConfig | case analysis on success |
| C03 | DecodeConfig with explicit panic outcome | no branch reaches panic; induction for the resource loop |
| C04 | reader with schedules | ReadFull is schedule independent (induction); lift through every function of DecodeConfig |
| C05 | Decode with schedules | false: adjustAlign4 uses one bare Read; concrete witness, and partial theorem for schedules whose reads deliver at least 3 bytes |
| C06 | position field of the reader | compositional: every reader function advances by what it reports |
| C07, C08 | Decode | every non-seeking function is determined by the bytes it consumes (locality), composed through the whole decoder; seekers follow by C11 where a plain reader succeeds, and a witness shows that they go back otherwise |
| C09 | fuel recursion | fuel bound by remaining bytes never exhausted |
| C10 | explicit panics | false: witnesses (short section divider block, …); partial: sufficient condition on the bytes of the file, with layer pictures and PSB (Spec/Sound.lean, Spec/Drawable.lean) |
| C11 | three reader kinds | false: witness (negative / past-the-end skip on a Seeker); partial: equal whenever no skip leaves the data |
| C12 | readImageResource | induction over the resource list |
| C13–C16 | decodePackBits, per-line decoder with explicit bounds checks, worker split | relational spec of PackBits; induction; witnesses for malformed and 16-bit data |
| C17 | the JS and wasm variants | equality proofs / witness on byte 0x80 |
| C18–C19 | decodeDelta | spec: horizontal difference; induction over rows; witness for 8 bit |
| C20 | Decode/Raw | ReadFull specification |
| C21–C23 | buildTree, readLayerInfo numbering | spec: flatten of a forest; induction on forests with a stack invariant |
| C24–C28 | layer record, mask, extra data, additional info, unicode string, channel data parsers | spec encoders; round trips |
| C29–C32 | readLayerInfo, readLayerAndMaskInfo, Decode | spec encoder of documents; round trip |
| C33–C35 | picker index arithmetic, palette | arithmetic |
| C36–C37 | integer colour types and models | arithmetic with explicit 32-bit wrap; witnesses |
| C38–C45 | pixel kernels of zblends.go for 27 modes, 8-bit and 16-bit, with explicit 32-bit wrap | arithmetic; exact rational-free specification formulas |
| C46–C47 | pixel kernels of zporterduffs.go | arithmetic; witness for lossy Copy |
| C48 | clip, drawMask | geometry over Int |
| C49–C50 | Parallel row split, prepare4to4 iteration order | partition lemma, commuting row updates, interleavings; witness for overlap |
| C51–C52 | tiling and masks | function extensionality on pixel maps; witness for negative origins |
| C53–C55 | builder, New, Clone over an explicit heap of layers | induction; witnesses for nil/stale parents |
| C56–C60 | renderer state machine with an abstract picture algebra | invariants over histories; witnesses. Every cache entry tells what painting without caches would give; the entry of a folder can be used instead of painting if its picture stands being copied, which it does if what is in folders is hard-edged (`Spec/Solid`) |
| C61–C62 | goroutine state machines | invariants over all interleavings; deadlock witness |
| C63–C66 | thumbnails, transformRect, render split | geometry, arithmetic |
| C67–C69 | blend mode names, itoa, blend mode table | case analysis, induction |
| C70 | integer colour models on opaque colours | arithmetic with explicit division |
| C71 | renderer state machine | invariant over histories |
| C72 | goroutines, buffers, pool and maps of a render | simulation: every interleaving ends in the state of the sequential model; a measure shows it ends |
| C73 | integer grey models | arithmetic with explicit 32-bit wrap and error bounds |
| C74 | registration with package image, colour models of pictures | case analysis on success; witnesses |
| C75–C79 | createCanvas and createCanvasInner as goroutines that load layers while the decoder copies them | invariant over all interleavings; two explicit executions that differ; lengths of decoded planes by induction |
| C80 | the end of New | geometry |
| C81 | Decode with its callback | case analysis on success |
| C82–C87 | the first render of a new tree, layer by layer down to single pixels | refinement of the renderer to plain painting; relational induction over the layers of two documents, or of one with two sets of pixels |
| C88 | masks in the first render, and their values as loaded | the relational induction of C84; pixels of stored tiles |
| C89, C90 | loading, building the tree and rendering, composed | C75 to C79 joined with C82 to C87; relation between the trees of two executions |
| C91, C92 | `Render` and `Transform` of pictures, masks and trees; interpolation and gamma tables are parameters | what the pieces put together show, what cutting them again stores (C51, C66), composed; order of tiles and of the map is any permutation |
| C93 | `New` with a matrix, for one layer | the same for pictures from channels; geometry for the counterexamples |
| C94, C95 | `Thumbnail`, `Thumbnails`, `ThumbnailSheet`; the algorithm that scales down is a parameter | geometry of C63, the merge sequence of C40, induction over the thumbnails for the sheet |
| C96 | building the tree with an encoding detector; encodings and detector are parameters | induction over the layers with the remembered encoding as state |
| C97 | psdexporter/main.go over a map from file names to contents; `os.Create` and `png.Encode` are parameters | names are uniquely readable; mutual induction reduces the walk to a list of writes; composed with C32 |
| C98 | the heaps of C53 and C55, the renderer of C56; a caller's changes are those of C57 | trees with the same layers at the same paths give the same stack at every tile, which alone determines a first render; a clone is in memory of its own, so changes of one tree do not touch the layers of the other |
| C99 | the reader with a flag for how it reports the end (`St.eager`) | a relation between the two runs that is closed under sequencing: complete reads and skips do not depend on the flag, single reads of padding only at the very end; the merged picture begins with two bytes, so there is no padding at the very end if it is read |
| C100 | the documents of C32, with a specification of their contents apart from how they are written | the decoded values are a function of the contents; composed with C32 |
| C101 | `decodeDelta` at 32 bits against the prediction used for floating point samples | every byte string is the differenced form of some picture, so the result is known from C18 |
| C102 | the bytes of a file, the decoder, the goroutines that load it, the tree and the renderer, end to end; samples of a layer from the file (Spec/FilePicture) | C32, C75, C78, C79, C89 composed |
| C103 | as C102, for two files with the same contents | C100 and C90 composed |
| C104 | as C102, for every pixel: painting on one pixel (Spec/PixelPaint) with the colours and mask values of the file | tiles are mapped to pixels by a homomorphism of the drawing operations (Lemmas/PixelPaint); C82, C79 composed; a tile is stored iff something is visible in it |
| C105 | as C104, for files without folders, clipping and masks: a fold over the layers | C104, induction on the layers |
| C106 | mask data blocks as byte strings of any length, read by position (Spec/MaskBlock); they are a form of mask data in documents, so all document theorems cover them | symbolic run of the reader on every block, cases on the length; witness for padded blocks |
| C107 | documents with a ZIP merged picture (Spec/Unzipped); inflate and how far it reads are parameters | the part before the merged picture as for the same document stored raw; then the run of decodeZLIB on all that is left |
| C108 | decode with and without the option; documents with anything after their layers (Spec/Unzipped, Doc.front) | decode is the part before the merged picture followed by the picture; the former does not look at the option |
| C109 | the record of calls of the reader state | a simulation between runs whose records differ, by the closure lemmas for relations between parsers |
| C110 | the drawing kernels; the documented neutral colours (Spec/BlendLaws) | the channel formulas over all 256 backdrop levels by kernel evaluation, mixing by arithmetic |
| C111 | the drawing kernels on opaque pixels | commutativity of the integer formulas; overlay against hard light by arithmetic |
| C112 | the drawing kernels | each integer formula is monotone (arithmetic, induction for soft light), mixing is monotone |
| C113 | the drawing kernels on opaque pixels, negatives | the integer formulas of each pair are mirror images, including the rounding |
| C114 | the non-separable NRGBA kernels on opaque pixels; the RGBA and fallback kernels with setLum16 in rounded rational numbers | ClipColor scales towards the luminosity; the truncations of the three channels, weighted, are off by less than one level. In floating point everything up to the luminosity is exact (at most 53 bits), the rest is off by less than 2^-30 |
| C115 | the colour types with floating point components, as real numbers, infinities and NaN; rounding and `math.Pow` are parameters with stated accuracy | monotone rounding keeps the results in range; the errors of power, product and truncation add up |
| C116 | the models of these types | the powers 2.2 and 1/2.2 cancel; for translucent colours the alpha is divided off after the gamma, which leaves its power 6/11 |
| C117 | makeGammaTable with real numbers, rounding and `math.Pow` as parameters, restoreGamma and createImageGamma (C93) | both tables cut off the fraction: what comes back is at most the level; for gamma 2.2 the fractions are bounded by integer powers (checked for all 254 levels by the kernel), which leaves one level less |
| C118 | the renderer of C82 on both documents | the stack of each document is split at the folder; painting the folder copies the backdrop, which changes nothing where it is opaque, paints the contents with their opacities times 255/255, and copies the result back |
| C119 | the blending kernels (`Model/Blend*`) on NRGBA and 16-bit scales; the renderer of C82 | groups of modes in `Spec/Shade`; the blend function of each mode is compared with the backdrop, the mix over an opaque backdrop is monotone; for documents, the top layer of the stack is drawn on an opaque pixel in its mode or not at all |
| C120 | the same | a mix of two channels lies between them; with translucent backdrops the rounding of the three-term mix is bounded |
| C121 | the renderer of C82 on documents with and without the layers | stacks are split at the layers in question; painting layers that have nothing at a pixel leaves it; exchanging is leaving out twice; in pass-through folders the exchange is carried outwards with whether anything is painted, which does not depend on the backdrop. For files (also C84, C87, C118): the layers of both files are given common numbers, which changes no picture (`file_render`), and the theorem on documents applies |
| C122 | renderer states reachable by renders, cancellations, edits and marks (C57), and the trees of New and Clone (C53, C55) | `Spec/Edited` says which document a tree stands for; C57 reduces the render to a first one, C98 to that of New's tree of the document, C82 to painting its layers; assigning to a field is editing one record of the document |
| C123 | renderer states reachable by renders, cancellations and marks | invariant of one tile: it has no entries, or those a new renderer has after drawing it, and of these either none or all were made by the render going on; marks of layers without pixels in the tile leave its entries alone |
| C124 | the renderer of C82 on both documents | by induction over the folders around the layers: a folder that is not pass-through paints its contents on nothing, so that only what they look like goes into the rest; what is shown opaque or fully transparent determines what was painted |
| C125 | everything from the bytes of the file to the pixels: decoding, loading with any number of workers, cloning, the renderer and the changes | by joining C104 (file to pixels), C122 and C123 (histories); for files without folders by induction over the history, which keeps the tree one that stands for the changed layers of the file |
| C126 | the renderer on pictures of alphas only: the alpha of what every drawing operation gives is a function of the alphas it is given, and copying keeps alphas | the renderer of tiles simulates that of alphas pixel by pixel; as copies of alphas are exact, the histories of C56 and C57 leave right alphas in the caches, by induction |
| C127 | the same alphas for two documents | painting of alphas does not look at the blend mode but to see if a folder is pass-through; by induction over the layers, and C82; for files, C127, C128, C129 and C131 share `file_pair`: the pixel stacks of two files by C104, the trees of related layers are related (`buildTree_rel`), then `stack_rel` and `paint_rel` |
| C128 | the pictures of a document for two sets of layer pixels | a relation between pictures that all operations keep is kept by painting (`paint_rel`, by induction over the layers) and by rendering (`shown_rel`, C82); here: no channel brighter, by the monotony of the modes (C112) and of the Porter-Duff operators (C47); the negation in soft light by an example |
| C129 | the same | the relation: equal in a channel and as opaque; what the operations do to a channel is a function of the channel and the alphas (`pdC`, `drawC`) |
| C130 | the picture of a document with grey layers | the relation: grey; the non-separable modes by cases |
| C131 | the pictures of a document and its negative | the relation: both transparent black, or opaque and the negatives of each other; the modes by C113 |
| C132 | the pictures of a document for two sets of layer pixels | the relation: both fully opaque or fully transparent, and opaque in the second if in the first; one level by arithmetic on the three weights; witness for translucent layers |
| C133 | the picture of a document, one channel | bounds on each Porter-Duff operator and blend mode (destination-over: an inequality, and a complete check of the alphas too small for it), carried through painting together with the opacity of clipping groups; witness for grey masks |
| C134 | decoding, loading and rendering of a file | what a loaded tree is like whatever its masks (`loaded_tree`), then C130 |
| C135 | a file loaded with two tile sizes | what is invisible may be missing: a relation that painting keeps between stacks with gaps (`paint_gap`), for alphas, hard-edged pixels, and pixels that look the same; a file where the claim fails |
| C136 | two files alike at two places | as C135, with two files; for moves by whole tiles the two stacks are the same but for the layers' records (`paint_rel`); a file where the claim fails |
| C137 | drawing onto and from images of other types | the special kernels agree with the general one, pixel by pixel; then C48; a pair of images where they do not |
| C138 | pixels outside of a picture | the position in the planes is the number of the pixel; equal positions give equal pixels, others are past either end of every plane |

## Theorems per property and the axioms they depend on

Collected with `#print axioms` for every theorem named in MANIFEST.json. P = `propext`, C = `Classical.choice`, Q = `Quot.sound`; `–` = none.

| id | status | theorem | axioms |
|----|--------|---------|--------|
| C01 | proved | `C01_header_faithful` | P C Q |
| C02 | proved | `C02_only_valid_headers` | P C Q |
| C03 | proved | `C03_decodeConfig_never_panics` | P C Q |
| C04 | proved | `C04_decodeConfig_chunking` | P C Q |
| C05 | partial | `C05_chunking_partial` | P C Q |
|  |  | `C05_depends_on_chunking` | P C Q |
| C06 | proved | `C06_read_count` | P C Q |
| C07 | proved | `C07_truncated_rejected` | P C Q |
|  |  | `C07_end_of_input` | P Q |
| C08 | partial | `C08_trailing_bytes_partial` | P C Q |
|  |  | `C08_every_kind_partial` | P C Q |
|  |  | `C08_padding_at_end` | P C Q |
|  |  | `C08_seeker_steps_back` | P C Q |
| C09 | proved | `C09_terminates` | P C Q |
| C10 | partial | `C10_never_panics_partial` | P C Q |
|  |  | `C10_panics` | P C Q |
| C100 | proved | `C100_contents` | P C Q |
| C101 | partial | `C101_float_partial` | P C Q |
|  |  | `C101_white_not_undone` | P C Q |
| C102 | proved | `C102_file_to_picture` | P C Q |
| C103 | partial | `C103_same_contents_same_picture_partial` | P C Q |
| C104 | partial | `C104_pixels_of_file_partial` | P C Q |
| C105 | proved | `C105_flat_file` | P C Q |
| C106 | partial | `C106_mask_of_any_length_partial` | P C Q |
|  |  | `C106_longer_block` | P C Q |
|  |  | `C106_padded_block_loses_name` | P C Q |
| C107 | partial | `C107_zip_merged_partial` | P C Q |
|  |  | `C107_reads_ahead` | P C Q |
| C108 | proved | `C108_skip_merged_image` | P C Q |
|  |  | `C108_same_failures` | P C Q |
|  |  | `C108_any_merged_picture` | P C Q |
| C109 | proved | `C109_observed` | P C Q |
|  |  | `C109_calls_of_one_file` | P C Q |
| C11 | partial | `C11_reader_kinds_partial` | P C Q |
|  |  | `C11_seeker_differs` | P C Q |
|  |  | `C11_seeker_steps_back` | P C Q |
| C110 | partial | `C110_neutral_partial` | P C Q |
|  |  | `C110_within_one_partial` | P C Q |
|  |  | `C110_hard_light_is_off` | P Q |
|  |  | `C110_vivid_light_is_off` | P Q |
|  |  | `C110_neutral_rgba_partial` | P C Q |
|  |  | `C110_grey_rgba_partial` | P C Q |
|  |  | `C110_grey_rgba_is_off` | P C Q |
| C111 | partial | `C111_commutative` | P C Q |
|  |  | `C111_commutative_rgba` | P C Q |
|  |  | `C111_overlay_partial` | P C Q |
|  |  | `C111_overlay_rgba_partial` | P C Q |
|  |  | `C111_overlay_is_off` | P Q |
| C112 | partial | `C112_brighter_backdrop_partial` | P C Q |
|  |  | `C112_brighter_source` | P C Q |
|  |  | `C112_soft_light_is_off` | P Q |
|  |  | `C112_brighter_backdrop_rgba_partial` | P C Q |
|  |  | `C112_brighter_source_rgba_partial` | P C Q |
| C113 | proved | `C113_negatives` | P C Q |
|  |  | `C113_negatives_rgba` | P C Q |
| C114 | proved | `C114_luminosity_kept` | P C Q |
|  |  | `C114_grey_paint` | P C Q |
|  |  | `C114_grey_backdrop` | P C Q |
|  |  | `C114_luminosity_kept_rgba` | P C Q |
|  |  | `C114_luminosity_kept_any_opacity` | P C Q |
|  |  | `C114_grey_paint_rgba` | P C Q |
|  |  | `C114_grey_backdrop_rgba` | P C Q |
|  |  | `C114_luminosity_kept_fallback` | P C Q |
| C115 | partial | `C115_contract_partial` | P C Q |
|  |  | `C115_contract_usual` | P C Q |
|  |  | `C115_contract_can_fail` | P C Q |
|  |  | `C115_levels_partial` | P C Q |
|  |  | `C115_ends` | P C Q |
|  |  | `C115_minus_infinity_is_white` | P C Q |
|  |  | `C115_picture` | P C Q |
|  |  | `C115_grey_picture` | P C Q |
|  |  | `C115_stored_numbers` | P C Q |
| C116 | partial | `C116_opaque_partial` | P C Q |
|  |  | `C116_grey_partial` | P C Q |
|  |  | `C116_transparent` | P C Q |
|  |  | `C116_translucent_darkened` | P C Q |
|  |  | `C116_half_transparent` | P C Q |
| C117 | partial | `C117_never_brighter_partial` | P C Q |
|  |  | `C117_one_level_darker` | P C Q |
|  |  | `C117_moved_layer_darkened` | P C Q |
| C118 | partial | `C118_dissolve_partial` | P C Q |
|  |  | `C118_nested_partial` | P C Q |
|  |  | `C118_dissolve_keeps_opacity` | P C Q |
|  |  | `C118_dissolve_in_files_partial` | P C Q |
|  |  | `C118_dissolve_keeps_opacity_in_files` | P C Q |
|  |  | `C118_changes_translucent_pixels` | P C Q |
| C119 | partial | `C119_darkening` | P C Q |
|  |  | `C119_lightening` | P C Q |
|  |  | `C119_contrast` | P C Q |
|  |  | `C119_darkening_rgba` | P C Q |
|  |  | `C119_lightening_rgba_partial` | P C Q |
|  |  | `C119_contrast_rgba` | P C Q |
|  |  | `C119_add_darkens` | P Q |
|  |  | `C119_darkening_layer` | P C Q |
|  |  | `C119_lightening_layer` | P C Q |
| C12 | proved | `C12_resources_by_id` | P C Q |
| C120 | proved | `C120_normal_mixes` | P C Q |
|  |  | `C120_same_colour` | P C Q |
|  |  | `C120_normal_mixes_rgba` | P C Q |
| C121 | partial | `C121_clear_layers_partial` | P C Q |
|  |  | `C121_order_partial` | P C Q |
|  |  | `C121_nested_partial` | P C Q |
|  |  | `C121_nested_clear_partial` | P C Q |
|  |  | `C121_order_in_folders_partial` | P C Q |
|  |  | `C121_order_in_files_partial` | P C Q |
|  |  | `C121_clear_layers_in_files_partial` | P C Q |
|  |  | `C121_order_of_folders` | P C Q |
| C122 | partial | `C122_edited_document_partial` | P C Q |
|  |  | `C122_show_and_hide_partial` | P C Q |
|  |  | `C122_solid_pixels_partial` | P C Q |
|  |  | `C122_solid_folders_partial` | P C Q |
|  |  | `C122_flat_document` | P C Q |
|  |  | `C122_flat_show_and_fade` | P C Q |
| C123 | proved | `C123_same_tile` | P C Q |
|  |  | `C123_known_modes` | P C Q |
|  |  | `C123_no_marks` | P C Q |
| C124 | partial | `C124_contents_painted` | P C Q |
|  |  | `C124_contents_partial` | P C Q |
|  |  | `C124_translucent_contents` | P C Q |
| C125 | partial | `C125_rendered_again_partial` | P C Q |
|  |  | `C125_edited_file_partial` | P C Q |
|  |  | `C125_flat_file` | P C Q |
| C126 | proved | `C126_cached_is_as_opaque` | P C Q |
|  |  | `C126_edited_is_as_opaque` | P C Q |
|  |  | `C126_edited_document` | P C Q |
| C127 | proved | `C127_colours_do_not_matter` | P C Q |
|  |  | `C127_colours_of_files_do_not_matter` | P C Q |
| C128 | partial | `C128_brighter_layers_partial` | P C Q |
|  |  | `C128_brighter_files_partial` | P C Q |
|  |  | `C128_soft_light_is_off` | P C Q |
| C129 | proved | `C129_channels_do_not_mix` | P C Q |
|  |  | `C129_channels_of_files_do_not_mix` | P C Q |
| C13 | proved | `C13_packbits_inverts` | P C Q |
| C130 | proved | `C130_grey_stays_grey` | P C Q |
| C131 | proved | `C131_negative_document` | P C Q |
|  |  | `C131_negative_file` | P C Q |
| C132 | partial | `C132_covering_more_partial` | P C Q |
|  |  | `C132_covering_more_in_files_partial` | P C Q |
|  |  | `C132_covering_more_anywhere_partial` | P C Q |
|  |  | `C132_one_level_partial` | P C Q |
|  |  | `C132_more_opaque_is_less` | P C Q |
| C133 | partial | `C133_not_brighter_partial` | P C Q |
|  |  | `C133_not_brighter_file_partial` | P C Q |
|  |  | `C133_soft_mask_brightens` | P C Q |
| C134 | proved | `C134_grey_file` | P C Q |
| C135 | partial | `C135_transparency_partial` | P C Q |
|  |  | `C135_hard_edges_partial` | P C Q |
|  |  | `C135_translucent_partial` | P C Q |
|  |  | `C135_tile_size_shows` | P C Q |
|  |  | `C135_white_mask_shows` | P C Q |
| C136 | partial | `C136_moved_by_tiles` | P C Q |
|  |  | `C136_transparency_partial` | P C Q |
|  |  | `C136_hard_edges_partial` | P C Q |
|  |  | `C136_translucent_partial` | P C Q |
|  |  | `C136_moving_shows` | P C Q |
|  |  | `C136_white_mask_shows` | P C Q |
| C137 | partial | `C137_types_do_not_matter_partial` | P C Q |
|  |  | `C137_alpha_images_change_colour` | P C Q |
| C138 | partial | `C138_outside_partial` | P C Q |
|  |  | `C138_outside_bitmap_partial` | P C Q |
|  |  | `C138_next_row` | P Q |
|  |  | `C138_above_and_below` | P C Q |
|  |  | `C138_in_files` | P C Q |
|  |  | `C138_in_layers_of_files` | P C Q |
|  |  | `C138_in_bitmap_files` | P C Q |
| C14 | partial | `C14_packbits_safe_partial` | P C Q |
|  |  | `C14_huge_table_panics` | P Q |
| C15 | partial | `C15_procs_irrelevant_partial` | P C Q |
|  |  | `C15_depends_on_procs` | P |
| C16 | partial | `C16_wide_rle_partial` | P C Q |
|  |  | `C16_parallel_rle_fails` | P C Q |
| C17 | partial | `C17_platforms_agree_partial` | P C Q |
|  |  | `C17_js_differs` | P |
| C18 | proved | `C18_prediction_inverse` | P C Q |
| C19 | partial | `C19_8bit_prediction_partial` | P Q |
|  |  | `C19_8bit_prediction_not_undone` | P |
| C20 | proved | `C20_raw_exact` | P Q |
| C21 | proved | `C21_tree_mirrors_folders` | P Q |
| C22 | partial | `C22_unmatched_partial` | P C Q |
|  |  | `C22_unmatched_divider_loses_layers` | – |
| C23 | partial | `C23_order_partial` | P C Q |
|  |  | `C23_documents_partial` | P C Q |
|  |  | `C23_two_sections_repeat_seqID` | P C Q |
| C24 | proved | `C24_layer_fields` | P C Q |
|  |  | `C24_accessors` | P C Q |
| C25 | partial | `C25_mask_rects_partial` | P C Q |
|  |  | `C25_mask_data_partial` | P C Q |
|  |  | `C25_real_rect_loses_sign` | P C Q |
| C26 | proved | `C26_info_blocks` | P C Q |
| C27 | proved | `C27_unicode_names` | P C Q |
| C28 | proved | `C28_channel_pairing` | P C Q |
|  |  | `C28_declared_length` | P C Q |
| C29 | proved | `C29_skip_layer_image` | P C Q |
| C30 | partial | `C30_callbacks_partial` | P C Q |
|  |  | `C30_documents_partial` | P C Q |
|  |  | `C30_two_sections_restart` | P C Q |
| C31 | proved | `C31_psd_psb_agree` | P C Q |
| C32 | proved | `C32_document_round_trip` | P C Q |
| C33 | proved | `C33_pixels` | P C Q |
|  |  | `C33_indexed` | P C Q |
| C34 | proved | `C34_bitmap` | P Q |
| C35 | partial | `C35_palette_partial` | P Q |
|  |  | `C35_panics` | P |
| C36 | proved | `C36_rgba` | P Q |
| C37 | partial | `C37_total_partial` | P Q |
|  |  | `C37_idempotent_partial` | P Q |
|  |  | `C37_transparent_cmyk_panics` | P |
|  |  | `C37_not_idempotent` | P |
|  |  | `C37_wrong_type` | P |
| C38 | proved | `C38_no_wrap` | P C Q |
|  |  | `C38_mean_in_range` | P Q |
|  |  | `C38_drawn_pictures` | P C Q |
| C39 | proved | `C39_scaling` | P Q |
| C40 | partial | `C40_formulas_partial` | P C Q |
|  |  | `C40_hard_mix_partial` | P C Q |
|  |  | `C40_hard_mix_is_off` | P C Q |
|  |  | `C40_soft_light_partial` | P C Q |
|  |  | `C40_soft_light_is_off` | P C Q |
|  |  | `C40_square_root` | P C Q |
| C41 | partial | `C41_transparent_nrgba` | P C Q |
|  |  | `C41_transparent_rgba` | P Q |
|  |  | `C41_fallback_partial` | P C Q |
|  |  | `C41_fallback_requantises` | P Q |
| C42 | partial | `C42_alpha_partial` | P C Q |
|  |  | `C42_opaque_backdrop` | P C Q |
|  |  | `C42_alpha_can_decrease` | P Q |
|  |  | `C42_alpha16_partial` | P C Q |
|  |  | `C42_rounds_up_to_opaque` | P Q |
| C43 | partial | `C43_opaque_normal` | P C Q |
|  |  | `C43_onto_transparent` | P C Q |
|  |  | `C43_opaque_normal_rgba` | P C Q |
|  |  | `C43_onto_transparent_rgba` | P C Q |
|  |  | `C43_fallback_opaque_normal` | P C Q |
|  |  | `C45_fallback_add_is_off` | P Q |
| C44 | proved | `C44_non_separable` | P C Q |
| C45 | partial | `C45_no_wrap_partial` | P C Q |
|  |  | `C45_add_wraps` | P Q |
|  |  | `C45_add_in_range` | P C Q |
|  |  | `C45_stays_premultiplied_partial` | P C Q |
|  |  | `C45_fallback_partial` | P C Q |
|  |  | `C45_fallback_add_partial` | P C Q |
|  |  | `C45_fallback_add_is_off` | P Q |
| C46 | partial | `C46_copy_is_lossy` | P |
|  |  | `C46_copy_partial` | P Q |
| C47 | proved | `C47_operators` | P Q |
|  |  | `C47_drawing` | P Q |
|  |  | `C47_any_image` | P C Q |
|  |  | `C47_drawn_pictures` | P C Q |
|  |  | `C47_drawn_alpha` | P C Q |
| C48 | proved | `C48_draws_the_clipped_rectangle` | P C Q |
|  |  | `C48_porter_duff` | P C Q |
|  |  | `C48_blend_modes` | P C Q |
| C49 | proved | `C49_schedule_makes_no_difference` | P C Q |
|  |  | `C48_draws_the_clipped_rectangle` | P C Q |
|  |  | `C48_porter_duff` | P C Q |
|  |  | `C48_blend_modes` | P C Q |
| C50 | partial | `C50_self_overlap_partial` | P C Q |
|  |  | `C50_race` | P C Q |
| C51 | partial | `C51_tiles_hold_the_picture_partial` | P C Q |
|  |  | `C51_negative_edge_lost` | P C Q |
| C52 | partial | `C52_mask_partial` | P C Q |
|  |  | `C52_other_defaults_invert` | P C Q |
| C53 | proved | `C53_clipping_groups` | P C Q |
|  |  | `C53_tree_is_the_document` | P C Q |
| C54 | partial | `C54_parent_partial` | P C Q |
|  |  | `C54_top_level_has_no_parent` | P C Q |
|  |  | `C54_parent_is_stale` | P C Q |
| C55 | proved | `C55_clone` | P Q |
|  |  | `newTree_clonable` | P C Q |
| C56 | partial | `C56_cached_is_fresh_partial` | P C Q |
|  |  | `C56_solid_pixels_partial` | P C Q |
|  |  | `C56_solid_folders_partial` | P C Q |
|  |  | `C56_flat_document` | P C Q |
|  |  | `C56_new_tree_is_ok` | P C Q |
|  |  | `C56_lossy_cache` | P C Q |
| C57 | partial | `C57_marked_is_fresh_partial` | P C Q |
|  |  | `C57_solid_pixels_partial` | P C Q |
|  |  | `C57_solid_folders_partial` | P C Q |
|  |  | `C57_clone_is_linked` | P C Q |
|  |  | `C57_new_tree_is_never_redrawn` | P C Q |
|  |  | `C57_pass_through_left` | P C Q |
| C58 | proved | `C58_abort_restores` | P C Q |
|  |  | `C58_abort_restores_any_schedule` | P C Q |
|  |  | `C58_render_keeps` | P C Q |
| C59 | proved | `C59_marks_wait` | P C Q |
| C60 | proved | `C60_pool_is_blank` | P C Q |
|  |  | `C60_one_owner` | P C Q |
| C61 | proved | `C61_wait` | P Q |
| C62 | partial | `C62_cancel_partial` | P C Q |
|  |  | `C62_cancelling_can_hang` | P Q |
| C63 | partial | `C63_trim_partial` | P C Q |
|  |  | `C63_last_column_lost` | P C Q |
|  |  | `C63_blank_panics` | P C Q |
| C64 | proved | `C64_sheet` | P C Q |
| C65 | partial | `C65_contains_partial` | P C Q |
|  |  | `C65_identity_grows` | P C Q |
|  |  | `C65_contains_float_partial` | P C Q |
|  |  | `C65_float_exact` | P C Q |
|  |  | `C65_identity_grows_float` | P C Q |
| C66 | partial | `C66_each_tile_once_partial` | P C Q |
|  |  | `C66_negative_edge_missed` | P C Q |
| C67 | proved | `C67_names_are_unambiguous` | P C Q |
|  |  | `C67_names_of_modes` | P C Q |
|  |  | `C67_keys_of_modes` | P C Q |
| C68 | partial | `C68_decimal_partial` | P C Q |
|  |  | `C68_least_int` | P C Q |
| C69 | partial | `C69_known_modes_never_panic_partial` | P C Q |
|  |  | `C69_known_document` | P C Q |
|  |  | `C69_unknown_mode_panics` | P C Q |
|  |  | `C69_unblended_clip_panics` | P C Q |
| C70 | partial | `C70_opaque_preserved_partial` | P Q |
|  |  | `C70_black_becomes_white` | P |
| C71 | proved | `C71_diff_is_enough` | P C Q |
| C72 | proved | `C72_schedules_agree` | P C Q |
|  |  | `C72_renders_end` | P C Q |
|  |  | `C72_never_stuck` | P C Q |
|  |  | `C72_can_be_completed` | P C Q |
| C73 | proved | `C73_gray1` | P C Q |
|  |  | `C73_nGrayA32` | P Q |
|  |  | `C73_nGrayA` | P C Q |
| C74 | partial | `C74_recognised` | P C Q |
|  |  | `C74_config_agrees` | P C Q |
|  |  | `C74_colours_partial` | P Q |
|  |  | `C74_colour_changes` | P |
|  |  | `C74_components` | P Q |
|  |  | `C74_float_colours_partial` | P C Q |
| C75 | proved | `C75_pictures_stored` | P C Q |
|  |  | `C75_same_pictures` | P C Q |
|  |  | `C75_ends` | P C Q |
| C76 | partial | `C76_copies_partial` | P C Q |
|  |  | `C76_exact_tiles_partial` | P C Q |
|  |  | `C76_depends_on_schedule` | P C Q |
|  |  | `C76_rect_depends_on_schedule` | P C Q |
| C77 | partial | `C77_mask_in_effect_partial` | P C Q |
|  |  | `C77_uniform_mask_dropped` | P C Q |
| C78 | partial | `C78_no_crash_partial` | P C Q |
|  |  | `C78_no_blue_crashes` | P C Q |
| C79 | partial | `C79_colours_partial` | P C Q |
|  |  | `C79_wide_garbled` | P C Q |
| C80 | partial | `C80_rects_partial` | P C Q |
|  |  | `C80_rect_around_layers` | P C Q |
|  |  | `C80_empty_rect` | P C Q |
|  |  | `C80_canvas_grows` | P C Q |
| C81 | proved | `C81_sees_the_config` | P |
|  |  | `C81_decides` | P Q |
|  |  | `C81_new_refuses_others` | P |
| C82 | proved | `C82_render_paints_the_layers` | P C Q |
|  |  | `C82_one_stack` | P C Q |
| C83 | proved | `C83_only_what_is_seen` | P C Q |
| C84 | partial | `C84_hidden_leaves_no_trace_partial` | P C Q |
|  |  | `C84_hidden_in_files_partial` | P C Q |
|  |  | `C84_hidden_clip_changes_pixels` | P C Q |
| C85 | proved | `C85_clipping_keeps_transparency` | P C Q |
|  |  | `C85_clipping_in_files` | P C Q |
| C86 | partial | `C86_clip_covers_partial` | P C Q |
|  |  | `C86_clip_covers_in_folder_partial` | P C Q |
|  |  | `C86_clip_shows_partial` | P C Q |
|  |  | `C86_clip_covers_in_files_partial` | P C Q |
|  |  | `C86_unblended_clips_vanish` | P C Q |
|  |  | `C86_unblended_clips_in_files` | P C Q |
| C87 | proved | `C87_opaque_covers` | P C Q |
|  |  | `C87_top_layer_shows` | P C Q |
|  |  | `C87_covers_in_folders` | P C Q |
|  |  | `C87_top_in_folders` | P C Q |
|  |  | `C87_covers_in_files` | P C Q |
| C88 | partial | `C88_masks_hide_partial` | P C Q |
|  |  | `C88_white_masks_partial` | P C Q |
|  |  | `C88_masks_of_file_partial` | P C Q |
|  |  | `C88_other_default_inverts` | P C Q |
|  |  | `C88_white_mask_changes_colours` | P C Q |
|  |  | `C88_white_mask_on_pass_through` | P C Q |
| C89 | proved | `C89_top_layer_of_file_shows` | P C Q |
| C90 | partial | `C90_same_picture_partial` | P C Q |
|  |  | `C90_uniform_mask_by_chance` | P C Q |
| C91 | partial | `C91_tree_partial` | P C Q |
|  |  | `C91_picture_partial` | P C Q |
|  |  | `C91_mask` | P C Q |
|  |  | `C91_colour_lost` | P C Q |
|  |  | `C91_canvas_grows` | P C Q |
|  |  | `C91_loaded` | P C Q |
| C92 | partial | `C92_tree_partial` | P C Q |
|  |  | `C92_picture_partial` | P C Q |
|  |  | `C92_gamma_partial` | P C Q |
|  |  | `C92_mask_partial` | P C Q |
|  |  | `C92_negative_edge_lost` | P C Q |
| C93 | partial | `C93_picture_partial` | P C Q |
|  |  | `C93_gamma_partial` | P C Q |
|  |  | `C93_mask_partial` | P C Q |
|  |  | `C93_other_matrix` | P C Q |
|  |  | `C93_other_matrix_y` | P C Q |
|  |  | `C93_mask_border_hides` | P C Q |
| C94 | partial | `C94_thumbnail_partial` | P C Q |
|  |  | `C94_thumbnails` | P C Q |
|  |  | `C94_no_picture` | P Q |
|  |  | `C94_thin_layer_lost` | P C Q |
| C95 | proved | `C95_sheet` | P C Q |
| C96 | proved | `C96_one_encoding` | P C Q |
|  |  | `C96_names` | P C Q |
|  |  | `C96_nil_encoding_panics` | P C Q |
| C97 | partial | `C97_export_partial` | P C Q |
|  |  | `C97_document_partial` | P C Q |
|  |  | `C97_names_differ` | P C Q |
|  |  | `C97_no_document` | P |
|  |  | `C97_first_failure_ends` | P C Q |
|  |  | `C97_empty_layer_stops` | P C Q |
| C98 | proved | `C98_clone_renders_alike` | P C Q |
|  |  | `C98_original_stays` | P C Q |
|  |  | `C98_clone_stays` | P C Q |
|  |  | `C98_alike_renders_alike` | P C Q |
|  |  | `C98_new_is_owned` | P C Q |
| C99 | partial | `C99_end_of_data_partial` | P C Q |
|  |  | `C99_config_partial` | P C Q |
|  |  | `C99_later_is_safe` | P C Q |
|  |  | `C99_padding_at_end` | P C Q |

## Where the code does not do what is claimed

Each row is a property that is false of the code as it stands. The counterexample is a theorem too; the theorem with the suffix `_partial` (or the other theorems of the row above) says how much holds.

| id | what goes wrong, and what holds |
|----|----|
| C05 | Proved for all inputs and all pairs of schedules with reads of at least three bytes: same document, callbacks or error, and the same count unless a ZIP merged picture reads ahead. C05_depends_on_chunking: for one-byte reads the claim is false, because adjustAlign4 uses a bare Read. |
| C08 | Proved for readers without Seek, and for all readers on inputs that a reader without Seek accepts; with SkipMergedImage some byte must follow the consumed ones (C08_padding_at_end: otherwise the claim is false). C08_seeker_steps_back: for seekers alone the claim is false, they may read beyond what they report and go back. |
| C10 | Proved for all PSD and PSB byte strings up to 8 GiB, readers and chunkings, with and without layer pictures, provided that blocks announce at most 2^48 bytes, unicode-name and section-divider blocks have room for what they announce, layer pictures are skipped or every layer record is drawable (its channels exist in the colour mode and its planes fit, told from the bytes), and the merged picture is skipped or paintable. C10_panics: six families of inputs outside these conditions on which Decode panics. |
| C101 | False: the code sums up samples instead of bytes (C18 is what it undoes). Proved: decoding succeeds and returns the picture exactly if both predictions coincide on it; they do for black pictures and do not for white ones, whatever their size. |
| C103 | False of files with a mask in effect that has its default colour everywhere (C90_uniform_mask_by_chance is a witness). Proved for all other files of C102's kind, whatever their topmost layer. |
| C104 | False of files with a mask in effect that has its default colour everywhere on the canvas (C90_uniform_mask_by_chance); and a layer (or mask) of which nothing is visible in a whole tile counts as missing there, which can be seen in pass-through folders (C83, C88). Proved for all other files of C102's kind, with this exception stated pixel by pixel in the specification. |
| C106 | False of blocks that go on behind their last field (padding): the surplus bytes are left unread and taken for what follows (C106_longer_block, for all such blocks; C106_padded_block_loses_name: a file whose layer name is silently lost). Proved for all blocks that end within the known fields, and for all blocks of 20 bytes. Files with a real user mask left of or above the canvas are excluded (C25). |
| C107 | The result is proved for all such documents and readers. That the reader is left at the end of the document is false if compress/zlib reads ahead (C107_reads_ahead: it is so exactly if zlib pulls no more than the compressed bytes; if it fills a buffer, what follows the document is swallowed). Inflate is a parameter that gives the picture whatever follows the compressed bytes. |
| C11 | Proved: success through a plain reader or Discarder implies the same result through every kind. C11_seeker_differs, C11_seeker_steps_back: seekers accept truncated files, and files whose layers take more bytes than announced, which others reject. |
| C110 | White and black are neutral in all kernels. 50% grey is exact in 8 bits except for hard light and vivid light, and in 16 bits for soft light only; elsewhere it is at most one level off (bounds and witnesses proved). |
| C111 | Commutativity is proved (on the 16-bit scale without Add, which wraps around, C45). Overlay and hard light with the layers exchanged differ by one level at some pixels (witness proved) and never by more. |
| C112 | False for soft light in 8 bits: white over 63 is darker than white over 59 (proved). True for soft light on the 16-bit scale. On the 16-bit scale Add wraps around (C45). |
| C115 | False of negative components: they go through NaN, whose conversion to an integer is up to the platform, and minus infinity is shown as white on every platform (proved). Proved for components that are amounts of light, with error bounds. Floating point is modelled by real numbers with rounding; what is assumed of rounding and math.Pow is in Floats.Faithful, which is shown to be satisfiable. |
| C116 | False of translucent colours: every channel is multiplied by the power 6/11 of the alpha (proved for all of them). Proved for opaque and for fully transparent colours. |
| C117 | False: both conversions cut off the fraction. With gamma 2.2 each of the 254 levels between black and white comes back as the level below it, and a layer moved by whole pixels is darkened by one level (proved). Proved for gammas from 1/8 to 8: no level comes back brighter, black and white come back as they are. What is assumed of rounding and math.Pow is in Powers.Faithful, which is shown to be satisfiable. |
| C118 | The theorems with in_files in their names are from the bytes of the two files on. How opaque the picture is never changes (C118_dissolve_keeps_opacity, for all pixels). False where what is below the folder is translucent: the folder copies its backdrop and every copy of a translucent pixel loses a little colour (a document with such a pixel is proved to be a counterexample). Proved for every pixel at which the lowest layer of the document, or of the folder that is not pass-through and that the dissolved one is in, is opaque. |
| C119 | False of Add in images other than NRGBA: its sums wrap around, so that it can darken (proved). Proved for the others, and for layers and folders of documents, which are drawn in NRGBA images. |
| C121 | The theorems with in_files in their names are from the bytes of the two files on. False of pass-through folders over something translucent: they copy what is below, and copies of translucent pixels lose a little colour (counterexample proved). Proved for layers and other folders with whatever they contain and whatever is clipped to them, at the top level of the document and in folders that are not pass-through; exchanging layers is proved in folders of any kind and opacity. |
| C122 | False of trees as New returns them, which are never redrawn (C57_new_tree_is_never_redrawn), of partly transparent pictures (C56_lossy_cache) and of folders that stop being pass-through around pass-through folders (C57_pass_through_left). Proved for clones of all documents with hard-edged pictures and all histories; that the tree stands for a document is TreeShows, which New's trees, their clones and trees with layers shown and hidden are shown to meet. Only what is in folders has to be hard-edged, and only at the pixel in question (C122_solid_pixels_partial); for documents without folders it holds for all pixels, masks, opacities and edits. |
| C124 | False of translucent pixels: the pictures that are compared have lost a little of the colour the renderer computes with (counterexample proved). Proved for pixels shown opaque or fully transparent, and for all pixels if what is compared are the colours painted before they are copied to the picture. |
| C125 | False of the tree New returns, which is never redrawn (C57_new_tree_is_never_redrawn), of translucent pixels in folders (C56_lossy_cache) and of masks in effect that have their default colour everywhere (C90_uniform_mask_by_chance). Proved in full for clones of the trees of files without folders, clipping layers and masks in effect (C125_flat_file); for other files without changes (C125_rendered_again_partial), and with changes at pixels where all in folders is opaque or fully transparent (C125_edited_file_partial). |
| C128 | Violated in soft light, whose result can get darker when the backdrop gets brighter (C128_soft_light_is_off, also C112_soft_light_is_off). Proved for all other modes that grow, for a first render. The second theorem says it of files: two well-formed 8-bit RGB files, from the bytes on; no mask in effect is of its default colour everywhere (C90_uniform_mask_by_chance). |
| C132 | False of translucent layers: blending rounds its three weights down separately, so that a layer pixel of alpha 1 over one of alpha 254 gives 253 (proved, for a rendered document). Proved where every layer and mask is fully opaque or fully transparent, in all modes, with folders and clipping, for documents and for files from their bytes on, also with other tile sizes and if layers reach tiles in one file that they do not in the other (files without pass-through folders or without clipping layers); and that a pixel drawn over another takes at most one level off its alpha. |
| C133 | False of grey mask values on partly transparent pixels: a layer of grey 160 is shown with 161 (proved, for a rendered document). Proved for masks that are black or white at the pixel, or on layers that are opaque or fully transparent there, with translucent layers, folders, pass-through folders and clipping; folders have no pixels of their own. For a first render. The second theorem says the same from the bytes of a file on. |
| C135 | False of pass-through folders with a mask over translucent layers: in a file given in the proof, a pixel where the folder is empty has alpha 128 with tiles of one pixel and 192 with tiles of two. Proved for the alpha of the picture (all files without pass-through folders, and those without clipping layers whose pass-through folders have no masks), for whole pixels at hard edges (pass-through folders with masks included), and for whole pixels of files without pass-through folders, with any blend modes, opacities and clipping, where masks with default colour 255 are not white. White pixels of such masks over nearly transparent layers are a second case in which it is false (a level of green and blue is lost in the larger tile, proved). From the bytes of the file to the first render of the tree. |
| C136 | False of pass-through folders with a mask over translucent layers: in a file given in the proof, moving all layers by one pixel changes an alpha from 192 to 128 with tiles of two pixels. Proved for all files when the layers are moved by a multiple of the tile size. Proved for any two files alike at two places, with any tile sizes: for the alpha (no pass-through folders, or no clipping layers and no masks on pass-through folders), for whole pixels at hard edges, and for whole pixels of files without pass-through folders where masks with default colour 255 are not white; where they are, and the layer is nearly transparent, a move by one pixel changes colours by a level (proved). From the bytes of the files to the first render of the trees. |
| C137 | False of alpha images as sources: copied onto an RGBA image they are black, onto the same image of another type white (proved). Proved for all other sources, and any destination, with pixels that obey the contract of their types. |
| C138 | False: there is no bounds check, so the point right of a row is the first pixel of the next one, and At panics above and below the picture (proved for all pictures, among them the merged picture and the channels of the layers of every well-formed file). Proved in its place: what At does at every point, namely to return the pixel with the number the point would have if the rows went on to both sides, and to panic if there is none, so that no other memory is read; the same for bitmaps, with their padded rows. |
| C14 | False of the code: a length table whose entries sum to more than 2^48 makes the allocation panic (witness C14_huge_table_panics). Proved: on files of at most 2^33 bytes that is the only panic, and the output length is always right. |
| C15 | False of the code for rows that do not unpack to the row width (witness C15_depends_on_procs). Proved when every well-formed row unpacks to the row width. |
| C16 | False of the code with several workers: 16- and 32-bit RLE pictures are rejected (C16_parallel_rle_fails). Proved with one processor or fewer than 4 rows. |
| C17 | The wasm variant agrees on every input. The JavaScript variant rejects the no-op header 128 (witness C17_js_differs); proved to agree on all rows without it. |
| C19 | False of the code: prediction is not undone for 8-bit samples (C19_8bit_prediction_not_undone). The partial theorem says exactly for which pictures the result is right. |
| C22 | False of the code for unmatched dividers: the enclosing siblings are dropped silently (C22_unmatched_divider_loses_layers). Proved: rejected iff a folder record has no divider before it, and with equally many of both nothing is lost. |
| C23 | False of the code when layers come from several additional-info layer blocks: SeqID restarts at 0 in each (C23_two_sections_repeat_seqID). Proved for arbitrary input per section, and in full for one section. |
| C25 | False of the code for the real user mask: its rectangle is read unsigned (C25_real_rect_loses_sign). Proved for the mask rectangle always, and for real masks that do not start left of or above the canvas. |
| C30 | False of the code when layers come from several additional-info layer blocks: index and total restart (C30_two_sections_restart). Proved for arbitrary input per section, and in full for one section. |
| C35 | Proved when the transparency resource is absent or has at least two bytes; with a one-byte resource Palette panics (C35_panics). |
| C37 | Not total (8-bit CMYK divides by alpha 0) and not idempotent (three models test for the wrong type): witnesses proved. Proved: total otherwise, and idempotent on opaque colours. |
| C40 | 19 separable modes are within one level of the documented real formula. Soft light is off by more than 16 levels (witness proved; bound 17 proved) and hard mix is wrong at its threshold (witness proved). |
| C41 | Proved for all RGBA and NRGBA kernels. For other image types it is false: a transparent source costs the destination up to one 16-bit level (witness and bound proved). |
| C42 | NRGBA: 'never decreases' is false (alpha 1 over alpha 2 gives 1, witness proved), the rest is proved, with 'drops by at most one'. RGBA: never decreases is proved; '255 only when opaque' is false (254 over 254 stores 255, witness proved). |
| C43 | Proved for all kernels, except that Add through the fallback (image types other than RGBA and NRGBA) darkens colours drawn onto nothing (witness proved). |
| C45 | Proved for 26 of the 27 modes, all kernels and the fallback. Add is false: 128 + 128 opaque onto RGBA wraps to 0, and the fallback multiplies by alpha twice (witnesses proved); Add is proved exact where the sums fit, and through the fallback over opaque pixels, to within a level. The theorems hold whatever setLum16 (which runs in floating point) gives; what it gives is modelled bit by bit as float64Lum (C114). |
| C46 | False as stated: a channel loses one level at low alpha (100 at alpha 1 becomes 99), and a fully transparent pixel becomes black. Proved: alpha is exact, each channel is exact or one below, exact whenever it is 0 or channel * alpha >= 255; RGBA onto RGBA is exact. |
| C50 | False as stated: scrolling up by one row in place on two processors races (witness proved). Proved for one processor, fewer than four rows, horizontal shifts, disjoint regions, and undivided Porter-Duff fallbacks. |
| C51 | False for layers that start left of or above the canvas off the tile grid: the pixels before the next grid line, which are not on the canvas, are in no tile (Go's division rounds towards zero; proved for all such pixels). Proved for all other pixels of all layers, so for all pixels on the canvas. |
| C52 | Proved for default colours 0 and 255 up to the stated rounding. False for every other default colour (a file may hold any byte): the mask is stored inverted but applied as if it were not. For all masks and pixels of the canvas; left of and above it, the part of the mask before the first grid line counts as outside (as in C51). |
| C54 | False: Parent of every top-level layer is nil (proved for every document), and append leaves children with a stale copy of their folder as Parent (witness). Proved: below the top level Parent agrees with the folder in all but the clipping links. |
| C56 | False for partly transparent pixels in folders: copying a tile to a cache and back loses colour (C46), so a render that uses the cache differs from one that does not (witness proved). Proved for all trees, clipping groups, masks, pass-through folders and histories of renders, cancellations and marks when pixels and masks are hard-edged and layers are shown fully or not at all. Proved also for all pixels, masks and opacities of layers that are not in folders, and at every pixel at which what is in folders is hard-edged, whatever the other pixels are (C56_solid_pixels_partial), so without restriction for documents without folders (C56_flat_document). |
| C57 | False for trees made by New: top-level layers have no Parent, so that marking one never reaches the picture of the whole document (proved for every document); and false when a folder stops being pass-through around a pass-through folder (witness). Proved for linked trees (as Clone makes them), all changes of attributes between renders and all histories, for hard-edged pictures. Only what is in folders has to be hard-edged, and only at the pixel in question (C57_solid_pixels_partial). |
| C62 | False as stated: with more layers than goroutines a cancelled load can block for ever on the channel (proved reachable for every number of goroutines). Proved: an uncancelled load, and a cancelled one of at most n layers, always returns. |
| C63 | False as stated: the box is found tightly, but its last row and column are always cut off because the inclusive maximum is used as the exclusive bound, and a blank picture panics. Proved: the tight box, every other pixel kept in place, and both defects for every picture. |
| C65 | False as stated: the identity adds a column and a row to every rectangle (proved for all). Proved: every affine image of every pixel is contained, with exact numbers; in floating point up to 2^-20 of a pixel, and exactly for matrices with at most 16 binary places. |
| C66 | False for areas with a negative edge off the tile grid: what comes before the first grid line is in no tile (proved for all such areas). Proved: every other pixel of every area, so every one with coordinates that are not negative, is in exactly one tile that is handed out once, for every tile size and worker count. |
| C68 | The least 64-bit int prints as -0 (proved); every other int is proved. |
| C69 | False as stated: every key without operator, e.g. dissolve, panics when its layer is drawn (proved for every such key), and so does a pass-through folder with an unblended clipping layer (witness). Proved: if all modes of the document have operators, no sequence of renders, cancellations and marks panics. |
| C70 | Opaque black becomes white (witness proved); every other opaque colour is preserved exactly. |
| C74 | Recognition and agreement of DecodeConfig proved for every input. The colours' part is false for translucent grey and 16-bit CMYK pictures, whose colour models alter the colours of their own pixels (witnesses); proved for 32-bit pictures, bitmap, opaque grey and 8-bit CMYK. |
| C76 | False: the worker changes Rect and Mask.Rect of a layer that the decoder copies concurrently, so the last layer of every section may be copied before or after (proved for every file; witness with two values of Tree.Rect). Proved: everything else is independent of the schedule, and the two possible values. |
| C77 | False: a mask all of whose values are the default colour stores no tiles and is dropped, so a layer hidden by it is shown (proved for all such masks). The same happens to masks whose other values are all lost (C51). Proved: every other mask is in effect exactly if it is enabled, whatever the schedule. |
| C78 | False: a layer with a picture but no blue channel makes every execution panic in a goroutine (proved for all such documents, unless nothing of the layer is kept, see C51). Proved: documents of any bit depth whose pictures have red, green and blue never panic (for 16 and 32 bits, if the layers have less than 2^60 pixels, else the size of a picture is no int). |
| C79 | False for 16-bit and 32-bit documents, which are accepted but read as if they had 8 bits (proved for all). Proved for 8 bits, every schedule, every layer and every pixel of the canvas; left of and above it except for what C51 loses. |
| C80 | False: CanvasRect is always one column and one row too large (proved for every document). Proved: it contains the canvas, and Rect is the smallest rectangle around the layers, cut to it, and (0,0)-(0,0) if nothing is left of it. |
| C84 | C84_hidden_in_files_partial is from the bytes of the two files on. False for hidden layers that are clipping layers: their base goes through another rounding (witness). Proved for all others. |
| C86 | False if the option is off: the clipped layers are not drawn at all (proved for all documents). Proved if it is on: where both are opaque, the picture is that of the document in which the layer is an ordinary one and what is below is gone, whatever is clipped to the base above and below it and whatever is above; the same at any depth in folders that are not pass-through. |
| C88 | False of pass-through folders (a white mask makes the backdrop more opaque, witness), of translucent pixels (rounding, witness) and of masks whose default colour is neither 0 nor 255 (inverted, proved for all). Proved: black masks hide in every document without pass-through folders; white masks of layers leave opaque and transparent pixels alone; masks with default 0 or 255 have their values from the file after loading, at every pixel of the canvas. |
| C90 | False: whether a mask all of whose values are its default colour is in effect depends on the schedule (witness: one file, two executions, a layer hidden in one and shown in the other). Proved for files without such masks. |
| C91 | False: nearly transparent colours lose a level (witness), the canvas grows by a column and a row (proved for all). Proved: same layers, same masks, same pictures up to the rounding of blend.Copy, for every schedule. |
| C92 | False of pictures moved to a negative place off the tile grid: what comes before the first grid line is lost (proved for all). Proved for all other pixels, so for all of the canvas, for every interpolation, matrix, gamma table and schedule; the picture that interpolation starts from is the old one up to the rounding of blend.Copy. |
| C93 | False: matrices with 0 as first or fifth entry, as those of quarter turns, are replaced (proved for all), and masks that show what is outside get a border that hides (proved for all such masks and moves by whole pixels). Proved otherwise. |
| C94 | False: the last column and row of the visible pixels are cut off, and a layer whose visible pixels are in one column or one row has no thumbnail (proved for all). Proved: what the thumbnail shows is in proportion, fits, and contains all other visible pixels; Thumbnails is Thumbnail of every layer for every schedule. The algorithm for scaling down is a parameter. |
| C97 | False of documents with a layer without pixels: png.Encode refuses its picture, and the program ends there (proved for all such documents). Proved for the others: one file for each such layer with its picture, nothing else touched. os.Create and png.Encode are parameters. |
| C99 | False of files that end in a padding byte: the bare Read of the padding returns the end as an error (witnesses for both functions). Proved: whatever succeeds with the end reported along with the last bytes succeeds alike with the end reported afterwards; and the other way round through readers that cannot seek if the merged picture is read or data follow what was consumed. |
