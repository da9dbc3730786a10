{"claims": [
{"property": "C01", "status": "proved", "theorems": ["Psd.C01_header_faithful"], "note": "Readers that report the end along with the last bytes: only if data follow (C99)."},
{"property": "C02", "status": "proved", "theorems": ["Psd.C02_only_valid_headers"], "note": ""},
{"property": "C03", "status": "proved", "theorems": ["Psd.C03_decodeConfig_never_panics"], "note": ""},
{"property": "C04", "status": "proved", "theorems": ["Psd.C04_decodeConfig_chunking"], "note": ""},
{"property": "C05", "status": "partial", "theorems": ["Psd.C05_chunking_partial", "Psd.C05_depends_on_chunking"], "note": "Proved for all inputs and all pairs of schedules with reads of at least three bytes: same document, callbacks or error, and the same count unless a ZIP merged picture reads ahead. C05_depends_on_chunking: for one-byte reads the claim is false, because adjustAlign4 uses a bare Read."},
{"property": "C06", "status": "proved", "theorems": ["Psd.C06_read_count"], "note": "All inputs, options, reader kinds and schedules, for DecodeConfig and Decode."},
{"property": "C07", "status": "proved", "theorems": ["Psd.C07_truncated_rejected", "Psd.C07_end_of_input"], "note": "All inputs, options, chunkings and truncation points, for readers without Seek; a merged picture that is read is not ZIP-compressed (inflating reads ahead)."},
{"property": "C08", "status": "partial", "theorems": ["Psd.C08_trailing_bytes_partial", "Psd.C08_every_kind_partial", "Psd.C08_padding_at_end", "Psd.C08_seeker_steps_back"], "note": "Proved for readers without Seek, and for all readers on inputs that a reader without Seek accepts; with SkipMergedImage some byte must follow the consumed ones (C08_padding_at_end: otherwise the claim is false). C08_seeker_steps_back: for seekers alone the claim is false, they may read beyond what they report and go back."},
{"property": "C09", "status": "proved", "theorems": ["Psd.C09_terminates"], "note": "The model's loop bounds are never reached on any input, and any larger bounds give the same result."},
{"property": "C10", "status": "partial", "theorems": ["Psd.C10_never_panics_partial", "Psd.C10_panics"], "note": "Proved for all PSD and PSB byte strings up to 8 GiB, readers and chunkings, with and without layer pictures, provided that blocks announce at most 2^48 bytes, unicode-name and section-divider blocks have room for what they announce, layer pictures are skipped or every layer record is drawable (its channels exist in the colour mode and its planes fit, told from the bytes), and the merged picture is skipped or paintable. C10_panics: six families of inputs outside these conditions on which Decode panics."},
{"property": "C100", "status": "proved", "theorems": ["Psd.C100_contents"], "note": "Well-formed files as in C32, delivered at least three bytes at a time."},
{"property": "C101", "status": "partial", "theorems": ["Psd.C101_float_partial", "Psd.C101_white_not_undone"], "note": "False: the code sums up samples instead of bytes (C18 is what it undoes). Proved: decoding succeeds and returns the picture exactly if both predictions coincide on it; they do for black pictures and do not for white ones, whatever their size."},
{"property": "C102", "status": "proved", "theorems": ["Psd.C102_file_to_picture"], "note": "Composes C32, C75, C78, C79, C89 and C108: from the bytes a reader delivers to the rendered pixel; what is in the place of the merged picture does not matter. Layers in one section; pictures with red, green and blue (C78); blend modes of the format (C69). The transformation is the identity and the context is not cancelled."},
{"property": "C103", "status": "partial", "theorems": ["Psd.C103_same_contents_same_picture_partial"], "note": "False of files with a mask in effect that has its default colour everywhere (C90_uniform_mask_by_chance is a witness). Proved for all other files of C102's kind, whatever their topmost layer."},
{"property": "C104", "status": "partial", "theorems": ["Psd.C104_pixels_of_file_partial"], "note": "False of files with a mask in effect that has its default colour everywhere on the canvas (C90_uniform_mask_by_chance); and a layer (or mask) of which nothing is visible in a whole tile counts as missing there, which can be seen in pass-through folders (C83, C88). Proved for all other files of C102's kind, with this exception stated pixel by pixel in the specification."},
{"property": "C105", "status": "proved", "theorems": ["Psd.C105_flat_file"], "note": "Composes C104 with the flat tree; the drawing of one pixel is that of C39 to C46. Colours that pass through buffers are copied, which can round them (C46)."},
{"property": "C106", "status": "partial", "theorems": ["Psd.C106_mask_of_any_length_partial", "Psd.C106_longer_block", "Psd.C106_padded_block_loses_name"], "note": "False of blocks that go on behind their last field (padding): the surplus bytes are left unread and taken for what follows (C106_longer_block, for all such blocks; C106_padded_block_loses_name: a file whose layer name is silently lost). Proved for all blocks that end within the known fields, and for all blocks of 20 bytes. Files with a real user mask left of or above the canvas are excluded (C25)."},
{"property": "C107", "status": "partial", "theorems": ["Psd.C107_zip_merged_partial", "Psd.C107_reads_ahead"], "note": "The result is proved for all such documents and readers. That the reader is left at the end of the document is false if compress/zlib reads ahead (C107_reads_ahead: it is so exactly if zlib pulls no more than the compressed bytes; if it fills a buffer, what follows the document is swallowed). Inflate is a parameter that gives the picture whatever follows the compressed bytes."},
{"property": "C108", "status": "proved", "theorems": ["Psd.C108_skip_merged_image", "Psd.C108_same_failures", "Psd.C108_any_merged_picture"], "note": "The first two for every input. In the last, if nothing at all follows the layers, the reader must report the end afterwards (C99)."},
{"property": "C109", "status": "proved", "theorems": ["Psd.C109_observed", "Psd.C109_calls_of_one_file"], "note": "The callback is modelled by the record of its calls; a callback that changes the layers it is given is not modelled."},
{"property": "C11", "status": "partial", "theorems": ["Psd.C11_reader_kinds_partial", "Psd.C11_seeker_differs", "Psd.C11_seeker_steps_back"], "note": "Proved: success through a plain reader or Discarder implies the same result through every kind. C11_seeker_differs, C11_seeker_steps_back: seekers accept truncated files, and files whose layers take more bytes than announced, which others reject."},
{"property": "C110", "status": "partial", "theorems": ["Psd.C110_neutral_partial", "Psd.C110_within_one_partial", "Psd.C110_hard_light_is_off", "Psd.C110_vivid_light_is_off", "Psd.C110_neutral_rgba_partial", "Psd.C110_grey_rgba_partial", "Psd.C110_grey_rgba_is_off"], "note": "White and black are neutral in all kernels. 50% grey is exact in 8 bits except for hard light and vivid light, and in 16 bits for soft light only; elsewhere it is at most one level off (bounds and witnesses proved)."},
{"property": "C111", "status": "partial", "theorems": ["Psd.C111_commutative", "Psd.C111_commutative_rgba", "Psd.C111_overlay_partial", "Psd.C111_overlay_rgba_partial", "Psd.C111_overlay_is_off"], "note": "Commutativity is proved (on the 16-bit scale without Add, which wraps around, C45). Overlay and hard light with the layers exchanged differ by one level at some pixels (witness proved) and never by more."},
{"property": "C112", "status": "partial", "theorems": ["Psd.C112_brighter_backdrop_partial", "Psd.C112_brighter_source", "Psd.C112_soft_light_is_off", "Psd.C112_brighter_backdrop_rgba_partial", "Psd.C112_brighter_source_rgba_partial"], "note": "False for soft light in 8 bits: white over 63 is darker than white over 59 (proved). True for soft light on the 16-bit scale. On the 16-bit scale Add wraps around (C45)."},
{"property": "C113", "status": "proved", "theorems": ["Psd.C113_negatives", "Psd.C113_negatives_rgba"], "note": "Exact in the 8-bit and the 16-bit kernels."},
{"property": "C114", "status": "proved", "theorems": ["Psd.C114_luminosity_kept", "Psd.C114_grey_paint", "Psd.C114_grey_backdrop", "Psd.C114_luminosity_kept_rgba", "Psd.C114_luminosity_kept_any_opacity", "Psd.C114_grey_paint_rgba", "Psd.C114_grey_backdrop_rgba", "Psd.C114_luminosity_kept_fallback"], "note": "8-bit kernels (NRGBA) and 16-bit kernels (RGBA, and images of other types), where the luminosity is set in floating point. One level cannot be dropped (example). On RGBA images also for any alpha and opacity of the paint; there the grey of a luminosity is 257/256 of it, rounded down."},
{"property": "C115", "status": "partial", "theorems": ["Psd.C115_contract_partial", "Psd.C115_contract_usual", "Psd.C115_contract_can_fail", "Psd.C115_levels_partial", "Psd.C115_ends", "Psd.C115_minus_infinity_is_white", "Psd.C115_picture", "Psd.C115_grey_picture", "Psd.C115_stored_numbers"], "note": "False of negative components: they go through NaN, whose conversion to an integer is up to the platform, and minus infinity is shown as white on every platform (proved). Proved for components that are amounts of light, with error bounds. Floating point is modelled by real numbers with rounding; what is assumed of rounding and math.Pow is in Floats.Faithful, which is shown to be satisfiable."},
{"property": "C116", "status": "partial", "theorems": ["Psd.C116_opaque_partial", "Psd.C116_grey_partial", "Psd.C116_transparent", "Psd.C116_translucent_darkened", "Psd.C116_half_transparent"], "note": "False of translucent colours: every channel is multiplied by the power 6/11 of the alpha (proved for all of them). Proved for opaque and for fully transparent colours."},
{"property": "C117", "status": "partial", "theorems": ["Psd.C117_never_brighter_partial", "Psd.C117_one_level_darker", "Psd.C117_moved_layer_darkened"], "note": "False: both conversions cut off the fraction. With gamma 2.2 each of the 254 levels between black and white comes back as the level below it, and a layer moved by whole pixels is darkened by one level (proved). Proved for gammas from 1/8 to 8: no level comes back brighter, black and white come back as they are. What is assumed of rounding and math.Pow is in Powers.Faithful, which is shown to be satisfiable."},
{"property": "C118", "status": "partial", "theorems": ["Psd.C118_dissolve_partial", "Psd.C118_nested_partial", "Psd.C118_dissolve_keeps_opacity", "Psd.C118_dissolve_in_files_partial", "Psd.C118_dissolve_keeps_opacity_in_files", "Psd.C118_changes_translucent_pixels"], "note": "The theorems with in_files in their names are from the bytes of the two files on. How opaque the picture is never changes (C118_dissolve_keeps_opacity, for all pixels). False where what is below the folder is translucent: the folder copies its backdrop and every copy of a translucent pixel loses a little colour (a document with such a pixel is proved to be a counterexample). Proved for every pixel at which the lowest layer of the document, or of the folder that is not pass-through and that the dissolved one is in, is opaque."},
{"property": "C119", "status": "partial", "theorems": ["Psd.C119_darkening", "Psd.C119_lightening", "Psd.C119_contrast", "Psd.C119_darkening_rgba", "Psd.C119_lightening_rgba_partial", "Psd.C119_contrast_rgba", "Psd.C119_add_darkens", "Psd.C119_darkening_layer", "Psd.C119_lightening_layer"], "note": "False of Add in images other than NRGBA: its sums wrap around, so that it can darken (proved). Proved for the others, and for layers and folders of documents, which are drawn in NRGBA images."},
{"property": "C12", "status": "proved", "theorems": ["Psd.C12_resources_by_id"], "note": ""},
{"property": "C120", "status": "proved", "theorems": ["Psd.C120_normal_mixes", "Psd.C120_same_colour", "Psd.C120_normal_mixes_rgba"], "note": "For NRGBA images for all backdrops, for other images over opaque backdrops, with the source's colour rounded down to 8 bits."},
{"property": "C121", "status": "partial", "theorems": ["Psd.C121_clear_layers_partial", "Psd.C121_order_partial", "Psd.C121_nested_partial", "Psd.C121_nested_clear_partial", "Psd.C121_order_in_folders_partial", "Psd.C121_order_in_files_partial", "Psd.C121_clear_layers_in_files_partial", "Psd.C121_order_of_folders"], "note": "The theorems with in_files in their names are from the bytes of the two files on. False of pass-through folders over something translucent: they copy what is below, and copies of translucent pixels lose a little colour (counterexample proved). Proved for layers and other folders with whatever they contain and whatever is clipped to them, at the top level of the document and in folders that are not pass-through; exchanging layers is proved in folders of any kind and opacity."},
{"property": "C122", "status": "partial", "theorems": ["Psd.C122_edited_document_partial", "Psd.C122_show_and_hide_partial", "Psd.C122_solid_pixels_partial", "Psd.C122_solid_folders_partial", "Psd.C122_flat_document", "Psd.C122_flat_show_and_fade"], "note": "False of trees as New returns them, which are never redrawn (C57_new_tree_is_never_redrawn), of partly transparent pictures (C56_lossy_cache) and of folders that stop being pass-through around pass-through folders (C57_pass_through_left). Proved for clones of all documents with hard-edged pictures and all histories; that the tree stands for a document is TreeShows, which New's trees, their clones and trees with layers shown and hidden are shown to meet. Only what is in folders has to be hard-edged, and only at the pixel in question (C122_solid_pixels_partial); for documents without folders it holds for all pixels, masks, opacities and edits."},
{"property": "C123", "status": "proved", "theorems": ["Psd.C123_same_tile", "Psd.C123_known_modes", "Psd.C123_no_marks"], "note": "For all trees, pictures and operations on them, so for translucent pixels too (unlike C56)."},
{"property": "C124", "status": "partial", "theorems": ["Psd.C124_contents_painted", "Psd.C124_contents_partial", "Psd.C124_translucent_contents"], "note": "False of translucent pixels: the pictures that are compared have lost a little of the colour the renderer computes with (counterexample proved). Proved for pixels shown opaque or fully transparent, and for all pixels if what is compared are the colours painted before they are copied to the picture."},
{"property": "C125", "status": "partial", "theorems": ["Psd.C125_rendered_again_partial", "Psd.C125_edited_file_partial", "Psd.C125_flat_file"], "note": "False of the tree New returns, which is never redrawn (C57_new_tree_is_never_redrawn), of translucent pixels in folders (C56_lossy_cache) and of masks in effect that have their default colour everywhere (C90_uniform_mask_by_chance). Proved in full for clones of the trees of files without folders, clipping layers and masks in effect (C125_flat_file); for other files without changes (C125_rendered_again_partial), and with changes at pixels where all in folders is opaque or fully transparent (C125_edited_file_partial)."},
{"property": "C126", "status": "proved", "theorems": ["Psd.C126_cached_is_as_opaque", "Psd.C126_edited_is_as_opaque", "Psd.C126_edited_document"], "note": "For all pixels, masks and opacities. C126_cached_is_as_opaque is about trees that are not changed, C126_edited_is_as_opaque about changed trees whose layers know the folders they are in, C126_edited_document about clones of trees of documents. Blend modes have to be ones the renderer knows."},
{"property": "C127", "status": "proved", "theorems": ["Psd.C127_colours_do_not_matter", "Psd.C127_colours_of_files_do_not_matter"], "note": "For a first render; with C126 this is what any later render shows. Blend modes have to be ones the renderer knows. The second theorem says it of files: two well-formed 8-bit RGB files, from the bytes on; no mask in effect is of its default colour everywhere (C90_uniform_mask_by_chance)."},
{"property": "C128", "status": "partial", "theorems": ["Psd.C128_brighter_layers_partial", "Psd.C128_brighter_files_partial", "Psd.C128_soft_light_is_off"], "note": "Violated in soft light, whose result can get darker when the backdrop gets brighter (C128_soft_light_is_off, also C112_soft_light_is_off). Proved for all other modes that grow, for a first render. The second theorem says it of files: two well-formed 8-bit RGB files, from the bytes on; no mask in effect is of its default colour everywhere (C90_uniform_mask_by_chance)."},
{"property": "C129", "status": "proved", "theorems": ["Psd.C129_channels_do_not_mix", "Psd.C129_channels_of_files_do_not_mix"], "note": "For any two channels, the same one or different ones, and a first render. The second theorem says it of files: two well-formed 8-bit RGB files, from the bytes on; no mask in effect is of its default colour everywhere (C90_uniform_mask_by_chance)."},
{"property": "C13", "status": "proved", "theorems": ["Psd.C13_packbits_inverts"], "note": "Samples of 1 and 8 bits; those of 16 and 32 bits are C16."},
{"property": "C130", "status": "proved", "theorems": ["Psd.C130_grey_stays_grey"], "note": "In all modes the renderer knows, for a first render."},
{"property": "C131", "status": "proved", "theorems": ["Psd.C131_negative_document", "Psd.C131_negative_file"], "note": "Exact, for a first render. Linear dodge is among the modes: documents spell it lddg, which the decoder has as add. The second theorem says it of files: two well-formed 8-bit RGB files, from the bytes on; no mask in effect is of its default colour everywhere (C90_uniform_mask_by_chance)."},
{"property": "C132", "status": "partial", "theorems": ["Psd.C132_covering_more_partial", "Psd.C132_covering_more_in_files_partial", "Psd.C132_covering_more_anywhere_partial", "Psd.C132_one_level_partial", "Psd.C132_more_opaque_is_less"], "note": "False of translucent layers: blending rounds its three weights down separately, so that a layer pixel of alpha 1 over one of alpha 254 gives 253 (proved, for a rendered document). Proved where every layer and mask is fully opaque or fully transparent, in all modes, with folders and clipping, for documents and for files from their bytes on, also with other tile sizes and if layers reach tiles in one file that they do not in the other (files without pass-through folders or without clipping layers); and that a pixel drawn over another takes at most one level off its alpha."},
{"property": "C133", "status": "partial", "theorems": ["Psd.C133_not_brighter_partial", "Psd.C133_not_brighter_file_partial", "Psd.C133_soft_mask_brightens"], "note": "False of grey mask values on partly transparent pixels: a layer of grey 160 is shown with 161 (proved, for a rendered document). Proved for masks that are black or white at the pixel, or on layers that are opaque or fully transparent there, with translucent layers, folders, pass-through folders and clipping; folders have no pixels of their own. For a first render. The second theorem says the same from the bytes of a file on."},
{"property": "C134", "status": "proved", "theorems": ["Psd.C134_grey_file"], "note": "From the bytes of the file to the first render of the tree; files with any masks, including those of their default colour everywhere, whose effect is a matter of chance (C90). 8-bit RGB files with one section of layers."},
{"property": "C135", "status": "partial", "theorems": ["Psd.C135_transparency_partial", "Psd.C135_hard_edges_partial", "Psd.C135_translucent_partial", "Psd.C135_tile_size_shows", "Psd.C135_white_mask_shows"], "note": "False of pass-through folders with a mask over translucent layers: in a file given in the proof, a pixel where the folder is empty has alpha 128 with tiles of one pixel and 192 with tiles of two. Proved for the alpha of the picture (all files without pass-through folders, and those without clipping layers whose pass-through folders have no masks), for whole pixels at hard edges (pass-through folders with masks included), and for whole pixels of files without pass-through folders, with any blend modes, opacities and clipping, where masks with default colour 255 are not white. White pixels of such masks over nearly transparent layers are a second case in which it is false (a level of green and blue is lost in the larger tile, proved). From the bytes of the file to the first render of the tree."},
{"property": "C136", "status": "partial", "theorems": ["Psd.C136_moved_by_tiles", "Psd.C136_transparency_partial", "Psd.C136_hard_edges_partial", "Psd.C136_translucent_partial", "Psd.C136_moving_shows", "Psd.C136_white_mask_shows"], "note": "False of pass-through folders with a mask over translucent layers: in a file given in the proof, moving all layers by one pixel changes an alpha from 192 to 128 with tiles of two pixels. Proved for all files when the layers are moved by a multiple of the tile size. Proved for any two files alike at two places, with any tile sizes: for the alpha (no pass-through folders, or no clipping layers and no masks on pass-through folders), for whole pixels at hard edges, and for whole pixels of files without pass-through folders where masks with default colour 255 are not white; where they are, and the layer is nearly transparent, a move by one pixel changes colours by a level (proved). From the bytes of the files to the first render of the trees."},
{"property": "C137", "status": "partial", "theorems": ["Psd.C137_types_do_not_matter_partial", "Psd.C137_alpha_images_change_colour"], "note": "False of alpha images as sources: copied onto an RGBA image they are black, onto the same image of another type white (proved). Proved for all other sources, and any destination, with pixels that obey the contract of their types."},
{"property": "C138", "status": "partial", "theorems": ["Psd.C138_outside_partial", "Psd.C138_outside_bitmap_partial", "Psd.C138_next_row", "Psd.C138_above_and_below", "Psd.C138_in_files", "Psd.C138_in_layers_of_files", "Psd.C138_in_bitmap_files"], "note": "False: there is no bounds check, so the point right of a row is the first pixel of the next one, and At panics above and below the picture (proved for all pictures, among them the merged picture and the channels of the layers of every well-formed file). Proved in its place: what At does at every point, namely to return the pixel with the number the point would have if the rows went on to both sides, and to panic if there is none, so that no other memory is read; the same for bitmaps, with their padded rows."},
{"property": "C14", "status": "partial", "theorems": ["Psd.C14_packbits_safe_partial", "Psd.C14_huge_table_panics"], "note": "False of the code: a length table whose entries sum to more than 2^48 makes the allocation panic (witness C14_huge_table_panics). Proved: on files of at most 2^33 bytes that is the only panic, and the output length is always right."},
{"property": "C15", "status": "partial", "theorems": ["Psd.C15_procs_irrelevant_partial", "Psd.C15_depends_on_procs"], "note": "False of the code for rows that do not unpack to the row width (witness C15_depends_on_procs). Proved when every well-formed row unpacks to the row width."},
{"property": "C16", "status": "partial", "theorems": ["Psd.C16_wide_rle_partial", "Psd.C16_parallel_rle_fails"], "note": "False of the code with several workers: 16- and 32-bit RLE pictures are rejected (C16_parallel_rle_fails). Proved with one processor or fewer than 4 rows."},
{"property": "C17", "status": "partial", "theorems": ["Psd.C17_platforms_agree_partial", "Psd.C17_js_differs"], "note": "The wasm variant agrees on every input. The JavaScript variant rejects the no-op header 128 (witness C17_js_differs); proved to agree on all rows without it."},
{"property": "C18", "status": "proved", "theorems": ["Psd.C18_prediction_inverse"], "note": ""},
{"property": "C19", "status": "partial", "theorems": ["Psd.C19_8bit_prediction_partial", "Psd.C19_8bit_prediction_not_undone"], "note": "False of the code: prediction is not undone for 8-bit samples (C19_8bit_prediction_not_undone). The partial theorem says exactly for which pictures the result is right."},
{"property": "C20", "status": "proved", "theorems": ["Psd.C20_raw_exact"], "note": ""},
{"property": "C21", "status": "proved", "theorems": ["Psd.C21_tree_mirrors_folders"], "note": ""},
{"property": "C22", "status": "partial", "theorems": ["Psd.C22_unmatched_partial", "Psd.C22_unmatched_divider_loses_layers"], "note": "False of the code for unmatched dividers: the enclosing siblings are dropped silently (C22_unmatched_divider_loses_layers). Proved: rejected iff a folder record has no divider before it, and with equally many of both nothing is lost."},
{"property": "C23", "status": "partial", "theorems": ["Psd.C23_order_partial", "Psd.C23_documents_partial", "Psd.C23_two_sections_repeat_seqID"], "note": "False of the code when layers come from several additional-info layer blocks: SeqID restarts at 0 in each (C23_two_sections_repeat_seqID). Proved for arbitrary input per section, and in full for one section."},
{"property": "C24", "status": "proved", "theorems": ["Psd.C24_layer_fields", "Psd.C24_accessors"], "note": ""},
{"property": "C25", "status": "partial", "theorems": ["Psd.C25_mask_rects_partial", "Psd.C25_mask_data_partial", "Psd.C25_real_rect_loses_sign"], "note": "False of the code for the real user mask: its rectangle is read unsigned (C25_real_rect_loses_sign). Proved for the mask rectangle always, and for real masks that do not start left of or above the canvas."},
{"property": "C26", "status": "proved", "theorems": ["Psd.C26_info_blocks"], "note": ""},
{"property": "C27", "status": "proved", "theorems": ["Psd.C27_unicode_names"], "note": ""},
{"property": "C28", "status": "proved", "theorems": ["Psd.C28_channel_pairing", "Psd.C28_declared_length"], "note": ""},
{"property": "C29", "status": "proved", "theorems": ["Psd.C29_skip_layer_image"], "note": ""},
{"property": "C30", "status": "partial", "theorems": ["Psd.C30_callbacks_partial", "Psd.C30_documents_partial", "Psd.C30_two_sections_restart"], "note": "False of the code when layers come from several additional-info layer blocks: index and total restart (C30_two_sections_restart). Proved for arbitrary input per section, and in full for one section."},
{"property": "C31", "status": "proved", "theorems": ["Psd.C31_psd_psb_agree"], "note": ""},
{"property": "C32", "status": "proved", "theorems": ["Psd.C32_document_round_trip"], "note": "Channels compressed with ZIP: inflate is a parameter, and the packed data are any data that it inflates to the picture (or its differenced rows, 16 and 32 bits). RLE channels of 1 and 8 bits; see C16 for the others."},
{"property": "C33", "status": "proved", "theorems": ["Psd.C33_pixels", "Psd.C33_indexed"], "note": "Every picker kind with whole-byte samples; floats are covered as 32-bit patterns. The bitmap picker is C34."},
{"property": "C34", "status": "proved", "theorems": ["Psd.C34_bitmap"], "note": ""},
{"property": "C35", "status": "partial", "theorems": ["Psd.C35_palette_partial", "Psd.C35_panics"], "note": "Proved when the transparency resource is absent or has at least two bytes; with a one-byte resource Palette panics (C35_panics)."},
{"property": "C36", "status": "proved", "theorems": ["Psd.C36_rgba"], "note": "The colour types with integer components; those with floating point components are C115."},
{"property": "C37", "status": "partial", "theorems": ["Psd.C37_total_partial", "Psd.C37_idempotent_partial", "Psd.C37_transparent_cmyk_panics", "Psd.C37_not_idempotent", "Psd.C37_wrong_type"], "note": "Not total (8-bit CMYK divides by alpha 0) and not idempotent (three models test for the wrong type): witnesses proved. Proved: total otherwise, and idempotent on opaque colours."},
{"property": "C38", "status": "proved", "theorems": ["Psd.C38_no_wrap", "Psd.C38_mean_in_range", "Psd.C38_drawn_pictures"], "note": "NRGBA onto NRGBA kernel, all 27 modes: succeeds and equals the unbounded-integer composite; and so do the bytes a whole draw leaves in memory, on any number of processors."},
{"property": "C39", "status": "proved", "theorems": ["Psd.C39_scaling"], "note": ""},
{"property": "C40", "status": "partial", "theorems": ["Psd.C40_formulas_partial", "Psd.C40_hard_mix_partial", "Psd.C40_hard_mix_is_off", "Psd.C40_soft_light_partial", "Psd.C40_soft_light_is_off", "Psd.C40_square_root"], "note": "19 separable modes are within one level of the documented real formula. Soft light is off by more than 16 levels (witness proved; bound 17 proved) and hard mix is wrong at its threshold (witness proved)."},
{"property": "C41", "status": "partial", "theorems": ["Psd.C41_transparent_nrgba", "Psd.C41_transparent_rgba", "Psd.C41_fallback_partial", "Psd.C41_fallback_requantises"], "note": "Proved for all RGBA and NRGBA kernels. For other image types it is false: a transparent source costs the destination up to one 16-bit level (witness and bound proved)."},
{"property": "C42", "status": "partial", "theorems": ["Psd.C42_alpha_partial", "Psd.C42_opaque_backdrop", "Psd.C42_alpha_can_decrease", "Psd.C42_alpha16_partial", "Psd.C42_rounds_up_to_opaque"], "note": "NRGBA: 'never decreases' is false (alpha 1 over alpha 2 gives 1, witness proved), the rest is proved, with 'drops by at most one'. RGBA: never decreases is proved; '255 only when opaque' is false (254 over 254 stores 255, witness proved)."},
{"property": "C43", "status": "partial", "theorems": ["Psd.C43_opaque_normal", "Psd.C43_onto_transparent", "Psd.C43_opaque_normal_rgba", "Psd.C43_onto_transparent_rgba", "Psd.C43_fallback_opaque_normal", "Psd.C45_fallback_add_is_off"], "note": "Proved for all kernels, except that Add through the fallback (image types other than RGBA and NRGBA) darkens colours drawn onto nothing (witness proved)."},
{"property": "C44", "status": "proved", "theorems": ["Psd.C44_non_separable"], "note": ""},
{"property": "C45", "status": "partial", "theorems": ["Psd.C45_no_wrap_partial", "Psd.C45_add_wraps", "Psd.C45_add_in_range", "Psd.C45_stays_premultiplied_partial", "Psd.C45_fallback_partial", "Psd.C45_fallback_add_partial", "Psd.C45_fallback_add_is_off"], "note": "Proved for 26 of the 27 modes, all kernels and the fallback. Add is false: 128 + 128 opaque onto RGBA wraps to 0, and the fallback multiplies by alpha twice (witnesses proved); Add is proved exact where the sums fit, and through the fallback over opaque pixels, to within a level. The theorems hold whatever setLum16 (which runs in floating point) gives; what it gives is modelled bit by bit as float64Lum (C114)."},
{"property": "C46", "status": "partial", "theorems": ["Psd.C46_copy_is_lossy", "Psd.C46_copy_partial"], "note": "False as stated: a channel loses one level at low alpha (100 at alpha 1 becomes 99), and a fully transparent pixel becomes black. Proved: alpha is exact, each channel is exact or one below, exact whenever it is 0 or channel * alpha >= 255; RGBA onto RGBA is exact."},
{"property": "C47", "status": "proved", "theorems": ["Psd.C47_operators", "Psd.C47_drawing", "Psd.C47_any_image", "Psd.C47_drawn_pictures", "Psd.C47_drawn_alpha"], "note": "All twelve operators, for every pair of premultiplied 16-bit colours, for every pixel kernel (RGBA, NRGBA, Alpha and Uniform sources onto RGBA and NRGBA) and for images of any other type, whose colours are read and stored with 16 bits; and for the bytes a whole draw leaves in memory."},
{"property": "C48", "status": "proved", "theorems": ["Psd.C48_draws_the_clipped_rectangle", "Psd.C48_porter_duff", "Psd.C48_blend_modes"], "note": "For separate images, every operator and blend mode, source and mask kind, worker count and interleaving, whatever bytes the images hold: nothing panics, and exactly the covered pixels change, each to the kernel's result for the source and mask pixels at the same offset. Coordinates are unbounded integers."},
{"property": "C49", "status": "proved", "theorems": ["Psd.C49_schedule_makes_no_difference", "Psd.C48_draws_the_clipped_rectangle", "Psd.C48_porter_duff", "Psd.C48_blend_modes"], "note": "Every interleaving of the goroutines' single memory accesses, any number of processors, ends, never panics and leaves the same memory as any other."},
{"property": "C50", "status": "partial", "theorems": ["Psd.C50_self_overlap_partial", "Psd.C50_race"], "note": "False as stated: scrolling up by one row in place on two processors races (witness proved). Proved for one processor, fewer than four rows, horizontal shifts, disjoint regions, and undivided Porter-Duff fallbacks."},
{"property": "C51", "status": "partial", "theorems": ["Psd.C51_tiles_hold_the_picture_partial", "Psd.C51_negative_edge_lost"], "note": "False for layers that start left of or above the canvas off the tile grid: the pixels before the next grid line, which are not on the canvas, are in no tile (Go's division rounds towards zero; proved for all such pixels). Proved for all other pixels of all layers, so for all pixels on the canvas."},
{"property": "C52", "status": "partial", "theorems": ["Psd.C52_mask_partial", "Psd.C52_other_defaults_invert"], "note": "Proved for default colours 0 and 255 up to the stated rounding. False for every other default colour (a file may hold any byte): the mask is stored inverted but applied as if it were not. For all masks and pixels of the canvas; left of and above it, the part of the mask before the first grid line counts as outside (as in C51)."},
{"property": "C53", "status": "proved", "theorems": ["Psd.C53_clipping_groups", "Psd.C53_tree_is_the_document"], "note": "For every document and every way slices grow; the second theorem says that the tree whose sibling lists these are is the document's."},
{"property": "C54", "status": "partial", "theorems": ["Psd.C54_parent_partial", "Psd.C54_top_level_has_no_parent", "Psd.C54_parent_is_stale"], "note": "False: Parent of every top-level layer is nil (proved for every document), and append leaves children with a stale copy of their folder as Parent (witness). Proved: below the top level Parent agrees with the folder in all but the clipping links."},
{"property": "C55", "status": "proved", "theorems": ["Psd.C55_clone", "Psd.newTree_clonable"], "note": "For any tree on any heap with unique SeqIDs whose links stay inside; every tree made by New meets the conditions."},
{"property": "C56", "status": "partial", "theorems": ["Psd.C56_cached_is_fresh_partial", "Psd.C56_solid_pixels_partial", "Psd.C56_solid_folders_partial", "Psd.C56_flat_document", "Psd.C56_new_tree_is_ok", "Psd.C56_lossy_cache"], "note": "False for partly transparent pixels in folders: copying a tile to a cache and back loses colour (C46), so a render that uses the cache differs from one that does not (witness proved). Proved for all trees, clipping groups, masks, pass-through folders and histories of renders, cancellations and marks when pixels and masks are hard-edged and layers are shown fully or not at all. Proved also for all pixels, masks and opacities of layers that are not in folders, and at every pixel at which what is in folders is hard-edged, whatever the other pixels are (C56_solid_pixels_partial), so without restriction for documents without folders (C56_flat_document)."},
{"property": "C57", "status": "partial", "theorems": ["Psd.C57_marked_is_fresh_partial", "Psd.C57_solid_pixels_partial", "Psd.C57_solid_folders_partial", "Psd.C57_clone_is_linked", "Psd.C57_new_tree_is_never_redrawn", "Psd.C57_pass_through_left"], "note": "False for trees made by New: top-level layers have no Parent, so that marking one never reaches the picture of the whole document (proved for every document); and false when a folder stops being pass-through around a pass-through folder (witness). Proved for linked trees (as Clone makes them), all changes of attributes between renders and all histories, for hard-edged pictures. Only what is in folders has to be hard-edged, and only at the pixel in question (C57_solid_pixels_partial)."},
{"property": "C58", "status": "proved", "theorems": ["Psd.C58_abort_restores", "Psd.C58_abort_restores_any_schedule", "Psd.C58_render_keeps"], "note": "For every tree, every initial cache, every interleaving of the goroutines and every moment of the cancellation; entries that were there also keep their pictures."},
{"property": "C59", "status": "proved", "theorems": ["Psd.C59_marks_wait"], "note": "Every execution with marks during a render comes out as the execution with the same marks after it."},
{"property": "C60", "status": "proved", "theorems": ["Psd.C60_pool_is_blank", "Psd.C60_one_owner"], "note": "Model with arrays in memory, the pool and interleaved goroutines; every history of renders of any scenes. Also: a buffer is used by one goroutine at a time and never while it is in the pool."},
{"property": "C61", "status": "proved", "theorems": ["Psd.C61_wait"], "note": "Transition system of Wait, its helper goroutine, any number of workers and a canceller: finite executions, no deadlock, returns after all workers, reports abort exactly if the abort flag was set."},
{"property": "C62", "status": "partial", "theorems": ["Psd.C62_cancel_partial", "Psd.C62_cancelling_can_hang"], "note": "False as stated: with more layers than goroutines a cancelled load can block for ever on the channel (proved reachable for every number of goroutines). Proved: an uncancelled load, and a cancelled one of at most n layers, always returns."},
{"property": "C63", "status": "partial", "theorems": ["Psd.C63_trim_partial", "Psd.C63_last_column_lost", "Psd.C63_blank_panics"], "note": "False as stated: the box is found tightly, but its last row and column are always cut off because the inclusive maximum is used as the exclusive bound, and a blank picture panics. Proved: the tight box, every other pixel kept in place, and both defects for every picture."},
{"property": "C64", "status": "proved", "theorems": ["Psd.C64_sheet"], "note": "Unbounded integers; also shows that every thumbnail fits its cell."},
{"property": "C65", "status": "partial", "theorems": ["Psd.C65_contains_partial", "Psd.C65_identity_grows", "Psd.C65_contains_float_partial", "Psd.C65_float_exact", "Psd.C65_identity_grows_float"], "note": "False as stated: the identity adds a column and a row to every rectangle (proved for all). Proved: every affine image of every pixel is contained, with exact numbers; in floating point up to 2^-20 of a pixel, and exactly for matrices with at most 16 binary places."},
{"property": "C66", "status": "partial", "theorems": ["Psd.C66_each_tile_once_partial", "Psd.C66_negative_edge_missed"], "note": "False for areas with a negative edge off the tile grid: what comes before the first grid line is in no tile (proved for all such areas). Proved: every other pixel of every area, so every one with coordinates that are not negative, is in exactly one tile that is handed out once, for every tile size and worker count."},
{"property": "C67", "status": "proved", "theorems": ["Psd.C67_names_are_unambiguous", "Psd.C67_names_of_modes", "Psd.C67_keys_of_modes"], "note": "For keys of any length; the names and keys of the modes are a table of their own (Spec.Names)."},
{"property": "C68", "status": "partial", "theorems": ["Psd.C68_decimal_partial", "Psd.C68_least_int"], "note": "The least 64-bit int prints as -0 (proved); every other int is proved."},
{"property": "C69", "status": "partial", "theorems": ["Psd.C69_known_modes_never_panic_partial", "Psd.C69_known_document", "Psd.C69_unknown_mode_panics", "Psd.C69_unblended_clip_panics"], "note": "False as stated: every key without operator, e.g. dissolve, panics when its layer is drawn (proved for every such key), and so does a pass-through folder with an unblended clipping layer (witness). Proved: if all modes of the document have operators, no sequence of renders, cancellations and marks panics."},
{"property": "C70", "status": "partial", "theorems": ["Psd.C70_opaque_preserved_partial", "Psd.C70_black_becomes_white"], "note": "Opaque black becomes white (witness proved); every other opaque colour is preserved exactly."},
{"property": "C71", "status": "proved", "theorems": ["Psd.C71_diff_is_enough"], "note": "Every tree, every history of renders (cancelled or not), marks at any time, and changes of the tree, marked or not."},
{"property": "C72", "status": "proved", "theorems": ["Psd.C72_schedules_agree", "Psd.C72_renders_end", "Psd.C72_never_stuck", "Psd.C72_can_be_completed"], "note": "Single actions of goroutines (array reads and writes, map accesses, pool operations) interleave in any way. Assumes sequentially consistent memory."},
{"property": "C73", "status": "proved", "theorems": ["Psd.C73_gray1", "Psd.C73_nGrayA32", "Psd.C73_nGrayA"], "note": "All colours that meet the contract of image/color; error bounds stated exactly. Grey types with floating point components are C116; a colour of type NGrayA64 passes through unchanged (C37_wrong_type)."},
{"property": "C74", "status": "partial", "theorems": ["Psd.C74_recognised", "Psd.C74_config_agrees", "Psd.C74_colours_partial", "Psd.C74_colour_changes", "Psd.C74_components", "Psd.C74_float_colours_partial"], "note": "Recognition and agreement of DecodeConfig proved for every input. The colours' part is false for translucent grey and 16-bit CMYK pictures, whose colour models alter the colours of their own pixels (witnesses); proved for 32-bit pictures, bitmap, opaque grey and 8-bit CMYK."},
{"property": "C75", "status": "proved", "theorems": ["Psd.C75_pictures_stored", "Psd.C75_same_pictures", "Psd.C75_ends"], "note": "Every number of goroutines and interleaving, without cancellation and transformation."},
{"property": "C76", "status": "partial", "theorems": ["Psd.C76_copies_partial", "Psd.C76_exact_tiles_partial", "Psd.C76_depends_on_schedule", "Psd.C76_rect_depends_on_schedule"], "note": "False: the worker changes Rect and Mask.Rect of a layer that the decoder copies concurrently, so the last layer of every section may be copied before or after (proved for every file; witness with two values of Tree.Rect). Proved: everything else is independent of the schedule, and the two possible values."},
{"property": "C77", "status": "partial", "theorems": ["Psd.C77_mask_in_effect_partial", "Psd.C77_uniform_mask_dropped"], "note": "False: a mask all of whose values are the default colour stores no tiles and is dropped, so a layer hidden by it is shown (proved for all such masks). The same happens to masks whose other values are all lost (C51). Proved: every other mask is in effect exactly if it is enabled, whatever the schedule."},
{"property": "C78", "status": "partial", "theorems": ["Psd.C78_no_crash_partial", "Psd.C78_no_blue_crashes"], "note": "False: a layer with a picture but no blue channel makes every execution panic in a goroutine (proved for all such documents, unless nothing of the layer is kept, see C51). Proved: documents of any bit depth whose pictures have red, green and blue never panic (for 16 and 32 bits, if the layers have less than 2^60 pixels, else the size of a picture is no int)."},
{"property": "C79", "status": "partial", "theorems": ["Psd.C79_colours_partial", "Psd.C79_wide_garbled"], "note": "False for 16-bit and 32-bit documents, which are accepted but read as if they had 8 bits (proved for all). Proved for 8 bits, every schedule, every layer and every pixel of the canvas; left of and above it except for what C51 loses."},
{"property": "C80", "status": "partial", "theorems": ["Psd.C80_rects_partial", "Psd.C80_rect_around_layers", "Psd.C80_empty_rect", "Psd.C80_canvas_grows"], "note": "False: CanvasRect is always one column and one row too large (proved for every document). Proved: it contains the canvas, and Rect is the smallest rectangle around the layers, cut to it, and (0,0)-(0,0) if nothing is left of it."},
{"property": "C81", "status": "proved", "theorems": ["Psd.C81_sees_the_config", "Psd.C81_decides", "Psd.C81_new_refuses_others"], "note": ""},
{"property": "C82", "status": "proved", "theorems": ["Psd.C82_render_paints_the_layers", "Psd.C82_one_stack"], "note": "The picture is stated with Spec/Paint.lean and Spec/Picture.lean; masks and single pixels with C83 to C88."},
{"property": "C83", "status": "proved", "theorems": ["Psd.C83_only_what_is_seen"], "note": "With pass-through folders the same tiles have to be stored in both (strict)."},
{"property": "C84", "status": "partial", "theorems": ["Psd.C84_hidden_leaves_no_trace_partial", "Psd.C84_hidden_in_files_partial", "Psd.C84_hidden_clip_changes_pixels"], "note": "C84_hidden_in_files_partial is from the bytes of the two files on. False for hidden layers that are clipping layers: their base goes through another rounding (witness). Proved for all others."},
{"property": "C85", "status": "proved", "theorems": ["Psd.C85_clipping_keeps_transparency", "Psd.C85_clipping_in_files"], "note": ""},
{"property": "C86", "status": "partial", "theorems": ["Psd.C86_clip_covers_partial", "Psd.C86_clip_covers_in_folder_partial", "Psd.C86_clip_shows_partial", "Psd.C86_clip_covers_in_files_partial", "Psd.C86_unblended_clips_vanish", "Psd.C86_unblended_clips_in_files"], "note": "False if the option is off: the clipped layers are not drawn at all (proved for all documents). Proved if it is on: where both are opaque, the picture is that of the document in which the layer is an ordinary one and what is below is gone, whatever is clipped to the base above and below it and whatever is above; the same at any depth in folders that are not pass-through."},
{"property": "C87", "status": "proved", "theorems": ["Psd.C87_opaque_covers", "Psd.C87_top_layer_shows", "Psd.C87_covers_in_folders", "Psd.C87_top_in_folders", "Psd.C87_covers_in_files"], "note": "C87_covers_in_files is from the bytes of the two files on. C87_opaque_covers and C87_top_layer_shows are about layers that are in no folder, the other two about layers in folders at any depth. What covers (Covering), what it covers (BelowGone) and what is topmost (Topmost) is defined in Spec/Covered.lean."},
{"property": "C88", "status": "partial", "theorems": ["Psd.C88_masks_hide_partial", "Psd.C88_white_masks_partial", "Psd.C88_masks_of_file_partial", "Psd.C88_other_default_inverts", "Psd.C88_white_mask_changes_colours", "Psd.C88_white_mask_on_pass_through"], "note": "False of pass-through folders (a white mask makes the backdrop more opaque, witness), of translucent pixels (rounding, witness) and of masks whose default colour is neither 0 nor 255 (inverted, proved for all). Proved: black masks hide in every document without pass-through folders; white masks of layers leave opaque and transparent pixels alone; masks with default 0 or 255 have their values from the file after loading, at every pixel of the canvas."},
{"property": "C89", "status": "proved", "theorems": ["Psd.C89_top_layer_of_file_shows"], "note": "Also for pixels beyond the canvas, except those that C51 loses."},
{"property": "C90", "status": "partial", "theorems": ["Psd.C90_same_picture_partial", "Psd.C90_uniform_mask_by_chance"], "note": "False: whether a mask all of whose values are its default colour is in effect depends on the schedule (witness: one file, two executions, a layer hidden in one and shown in the other). Proved for files without such masks."},
{"property": "C91", "status": "partial", "theorems": ["Psd.C91_tree_partial", "Psd.C91_picture_partial", "Psd.C91_mask", "Psd.C91_colour_lost", "Psd.C91_canvas_grows", "Psd.C91_loaded"], "note": "False: nearly transparent colours lose a level (witness), the canvas grows by a column and a row (proved for all). Proved: same layers, same masks, same pictures up to the rounding of blend.Copy, for every schedule."},
{"property": "C92", "status": "partial", "theorems": ["Psd.C92_tree_partial", "Psd.C92_picture_partial", "Psd.C92_gamma_partial", "Psd.C92_mask_partial", "Psd.C92_negative_edge_lost"], "note": "False of pictures moved to a negative place off the tile grid: what comes before the first grid line is lost (proved for all). Proved for all other pixels, so for all of the canvas, for every interpolation, matrix, gamma table and schedule; the picture that interpolation starts from is the old one up to the rounding of blend.Copy."},
{"property": "C93", "status": "partial", "theorems": ["Psd.C93_picture_partial", "Psd.C93_gamma_partial", "Psd.C93_mask_partial", "Psd.C93_other_matrix", "Psd.C93_other_matrix_y", "Psd.C93_mask_border_hides"], "note": "False: matrices with 0 as first or fifth entry, as those of quarter turns, are replaced (proved for all), and masks that show what is outside get a border that hides (proved for all such masks and moves by whole pixels). Proved otherwise."},
{"property": "C94", "status": "partial", "theorems": ["Psd.C94_thumbnail_partial", "Psd.C94_thumbnails", "Psd.C94_no_picture", "Psd.C94_thin_layer_lost"], "note": "False: the last column and row of the visible pixels are cut off, and a layer whose visible pixels are in one column or one row has no thumbnail (proved for all). Proved: what the thumbnail shows is in proportion, fits, and contains all other visible pixels; Thumbnails is Thumbnail of every layer for every schedule. The algorithm for scaling down is a parameter."},
{"property": "C95", "status": "proved", "theorems": ["Psd.C95_sheet"], "note": "The cells show the thumbnails up to the rounding of blend.Copy."},
{"property": "C96", "status": "proved", "theorems": ["Psd.C96_one_encoding", "Psd.C96_names", "Psd.C96_nil_encoding_panics"], "note": "Encodings and the detector are parameters; a detector that returns no encoding makes New panic if some layer has only a legacy name."},
{"property": "C97", "status": "partial", "theorems": ["Psd.C97_export_partial", "Psd.C97_document_partial", "Psd.C97_names_differ", "Psd.C97_no_document", "Psd.C97_first_failure_ends", "Psd.C97_empty_layer_stops"], "note": "False of documents with a layer without pixels: png.Encode refuses its picture, and the program ends there (proved for all such documents). Proved for the others: one file for each such layer with its picture, nothing else touched. os.Create and png.Encode are parameters."},
{"property": "C98", "status": "proved", "theorems": ["Psd.C98_clone_renders_alike", "Psd.C98_original_stays", "Psd.C98_clone_stays", "Psd.C98_alike_renders_alike", "Psd.C98_new_is_owned"], "note": "For trees as New makes them and callers edit them without touching numbers and clipping flags. Later renders are C57's."},
{"property": "C99", "status": "partial", "theorems": ["Psd.C99_end_of_data_partial", "Psd.C99_config_partial", "Psd.C99_later_is_safe", "Psd.C99_padding_at_end"], "note": "False of files that end in a padding byte: the bare Read of the padding returns the end as an error (witnesses for both functions). Proved: whatever succeeds with the end reported along with the last bytes succeeds alike with the end reported afterwards; and the other way round through readers that cannot seek if the merged picture is read or data follow what was consumed."}
]}
