{
 "claims": [
  {
   "property": "C01",
   "status": "proved",
   "theorems": [
    "Lofty.Synchsafe.synch8_isSome_iff",
    "Lofty.Synchsafe.synch16_isSome_iff",
    "Lofty.Synchsafe.synch32_isSome_iff",
    "Lofty.Synchsafe.synch8_roundtrip",
    "Lofty.Synchsafe.synch16_roundtrip",
    "Lofty.Synchsafe.synch32_roundtrip",
    "Lofty.Synchsafe.unsynch32_synch",
    "Lofty.Synchsafe.widen8_roundtrip",
    "Lofty.Synchsafe.widen16_roundtrip",
    "Lofty.Synchsafe.widen32_groups"
   ],
   "note": ""
  },
  {
   "property": "C02",
   "status": "proved",
   "theorems": [
    "Lofty.Synchsafe.unsync_reads",
    "Lofty.Synchsafe.unsync_prefix",
    "Lofty.Synchsafe.unsync_recovers"
   ],
   "note": ""
  },
  {
   "property": "C03",
   "status": "proved",
   "theorems": [
    "Lofty.Flac.replaceRange_splice",
    "Lofty.Flac.replaceRange_invalid"
   ],
   "note": ""
  },
  {
   "property": "C04",
   "status": "proved",
   "theorems": [
    "Lofty.Text.decode_encode_terminated",
    "Lofty.Text.decode_encode_unterminated",
    "Lofty.Text.encode_fails_iff",
    "Lofty.Text.decode_encode_lossy",
    "Lofty.Text.readToTerminator_one",
    "Lofty.Text.readToTerminator_two",
    "Lofty.Text.decoded_no_trailing_nul",
    "Lofty.Text.maybeBom_encode",
    "Lofty.Text.utf16_drops_feff",
    "Lofty.Text.latin1_error_index"
   ],
   "note": ""
  },
  {
   "property": "C05",
   "status": "proved",
   "theorems": [
    "Lofty.Pairs.parse_format",
    "Lofty.Pairs.history",
    "Lofty.Pairs.goodSep_id3",
    "Lofty.Pairs.goodSep_ape",
    "Lofty.Pairs.missing_number_misread"
   ],
   "note": ""
  },
  {
   "property": "C06",
   "status": "proved",
   "theorems": [
    "Lofty.Math.divRound_ok_iff",
    "Lofty.Math.divRound_nearest",
    "Lofty.Math.divRound_mono",
    "Lofty.Math.divRound_trunc",
    "Lofty.Math.divRound_below_half"
   ],
   "note": ""
  },
  {
   "property": "C07",
   "status": "proved",
   "theorems": [
    "Lofty.Ogg.page_write_read",
    "Lofty.Ogg.page_read_write"
   ],
   "note": ""
  },
  {
   "property": "C08",
   "status": "proved",
   "theorems": [
    "Lofty.Ogg.crc32_eq_spec",
    "Lofty.Ogg.crc32_remainder",
    "Lofty.Ogg.crcStep_index",
    "Lofty.Ogg.crc32_xor",
    "Lofty.Ogg.crc32_detects_burst",
    "Lofty.Ogg.genCrc_spec"
   ],
   "note": ""
  },
  {
   "property": "C09",
   "status": "proved",
   "theorems": [
    "Lofty.Ogg.paginate_read",
    "Lofty.Ogg.paginate_readCount",
    "Lofty.Ogg.readCount_terminates"
   ],
   "note": ""
  },
  {
   "property": "C10",
   "status": "partial",
   "theorems": [
    "Lofty.Ogg.paginate_wellformed",
    "Lofty.Ogg.paginate_granules_partial",
    "Lofty.Ogg.paginate_granules_wrong"
   ],
   "note": "Everything but the granule clause is proved in full. The granule clause is false for packets whose length is a non-zero multiple of 8160 (witness paginate_granules_wrong) and proved for all other packet lists."
  },
  {
   "property": "C11",
   "status": "proved",
   "theorems": [
    "Lofty.Ogg.holds_exists",
    "Lofty.Ogg.iter_holds",
    "Lofty.Ogg.get_holds",
    "Lofty.Ogg.set_holds",
    "Lofty.Ogg.setMany_holds"
   ],
   "note": ""
  },
  {
   "property": "C12",
   "status": "proved",
   "theorems": [
    "Lofty.Vorbis.read_written",
    "Lofty.Vorbis.read_number_pair"
   ],
   "note": ""
  },
  {
   "property": "C13",
   "status": "proved",
   "theorems": [
    "Lofty.Vorbis.get_eq_head",
    "Lofty.Vorbis.getAll_insert",
    "Lofty.Vorbis.getAll_push",
    "Lofty.Vorbis.remove_spec",
    "Lofty.Vorbis.history",
    "Lofty.Vorbis.history_ordered",
    "Lofty.Vorbis.history_frame",
    "Lofty.Vorbis.get_insert",
    "Lofty.Vorbis.numbers",
    "Lofty.Vorbis.remove_reorders"
   ],
   "note": "remove_reorders records that removal does not keep the order of the values of other keys."
  },
  {
   "property": "C14",
   "status": "partial",
   "theorems": [
    "Lofty.Vorbis.readComments_no_panic_partial",
    "Lofty.Vorbis.readComments_bounds",
    "Lofty.Vorbis.readComments_rejects_count",
    "Lofty.Vorbis.coverart_panics"
   ],
   "note": "All clauses are proved except absence of panics, which is false: a COVERART field decoding to fewer than eight bytes panics (witness coverart_panics). Proved for all inputs without such a field, and for all inputs when cover art is not read."
  },
  {
   "property": "C15",
   "status": "proved",
   "theorems": [
    "Lofty.Flac.readBlock_write",
    "Lofty.Flac.write_refuses"
   ],
   "note": ""
  },
  {
   "property": "C16",
   "status": "proved",
   "theorems": [
    "Lofty.Flac.writeTo_stream",
    "Lofty.Flac.readFrom_written",
    "Lofty.Flac.readFrom_stream",
    "Lofty.Flac.skipped_nil",
    "Lofty.Flac.skipped_tag",
    "Lofty.Flac.replaceRange_splice"
   ],
   "note": "Prefix in front of the stream: nothing, or an ID3v2 tag without extended header (a prefix with an extended header is overshot by the tag search). Existing comment blocks must have a readable vendor string, otherwise the write is refused."
  },
  {
   "property": "C17",
   "status": "proved",
   "theorems": [
    "Lofty.Picture.fromFlac_asFlac_norm",
    "Lofty.Picture.fromFlac_asFlac",
    "Lofty.Picture.flac_picture_normalised",
    "Lofty.Picture.fromFlacBytes_no_panic",
    "Lofty.Picture.mimeFromBin_spec"
   ],
   "note": ""
  },
  {
   "property": "C18",
   "status": "proved",
   "theorems": [
    "Lofty.Picture.asU8_fromU8",
    "Lofty.Picture.fromU8_asU8",
    "Lofty.Picture.asU8_inj",
    "Lofty.Picture.fromApeKey_asApeKey",
    "Lofty.Picture.asApeKey_fromApeKey",
    "Lofty.Picture.asApeKey_inj",
    "Lofty.Picture.apePictureTypes_eq"
   ],
   "note": ""
  },
  {
   "property": "C19",
   "status": "partial",
   "theorems": [
    "Lofty.Iff.createInfo_spec",
    "Lofty.Iff.written_even",
    "Lofty.Iff.readWav_wav",
    "Lofty.Iff.writeInfo_append",
    "Lofty.Iff.writeInfo_replace_partial",
    "Lofty.Iff.readWav_written",
    "Lofty.Iff.odd_list_breaks_file",
    "Lofty.Iff.oversized_list_panics"
   ],
   "note": "The list itself (serialising, alignment, sizes, parsing) is proved in full. Replacing an INFO list inside a file is proved for old lists of even size and false for odd ones (odd_list_breaks_file)."
  },
  {
   "property": "C20",
   "status": "proved",
   "theorems": [
    "Lofty.Iff.createText_spec",
    "Lofty.Iff.readAiff_aiff",
    "Lofty.Iff.writeAiff_replace",
    "Lofty.Iff.writeAiff_insert",
    "Lofty.Iff.readAiff_replaced",
    "Lofty.Iff.readAiff_inserted",
    "Lofty.Iff.writeAiff_no_comm",
    "Lofty.Iff.odd_comment_unreadable"
   ],
   "note": "odd_comment_unreadable shows that the parity condition on comments is necessary."
  },
  {
   "property": "C21",
   "status": "proved",
   "theorems": [
    "Lofty.Iff.walk_headers",
    "Lofty.Iff.walk_sizes",
    "Lofty.Iff.walk_advances",
    "Lofty.Iff.walk_next_ok",
    "Lofty.Iff.walk_end_final",
    "Lofty.Iff.walk_oversized"
   ],
   "note": ""
  },
  {
   "property": "C22",
   "status": "proved",
   "theorems": [
    "Lofty.Id3v1.encode_ok_iff",
    "Lofty.Id3v1.parse_encode",
    "Lofty.Id3v1.parseYear_iff",
    "Lofty.Id3v1.stored_exact",
    "Lofty.Id3v1.stored_idem",
    "Lofty.Id3v1.write_untagged",
    "Lofty.Id3v1.write_tagged",
    "Lofty.Id3v1.find_written",
    "Lofty.Id3v1.setGenre_known",
    "Lofty.Id3v1.setGenre_unknown",
    "Lofty.Id3v1.setTrack_spec",
    "Lofty.Id3v1.setComment_spec",
    "Lofty.Id3v1.empty_tag_appended",
    "Lofty.Id3v1.yearless_tag_refused"
   ],
   "note": "yearless_tag_refused: strict parsing refuses a written tag without a year. empty_tag_appended: writing an empty tag to an untagged file appends 128 bytes."
  },
  {
   "property": "C23",
   "status": "partial",
   "theorems": [
    "Lofty.Id3v2.parseHeader_spec",
    "Lofty.Id3v2.parseHeader_v2_bit6",
    "Lofty.Id3v2.parseHeader_createTag_partial",
    "Lofty.Id3v2.parseHeader_ext_size",
    "Lofty.Id3v2.parseHeader_ext_v24",
    "Lofty.Id3v2.ext_header_not_announced",
    "Lofty.Id3v2.v23_experimental_wrong",
    "Lofty.Id3v2.parseHeader_frame_first",
    "Lofty.Id3v2.v23_experimental_lost"
   ],
   "note": "Parsing is characterised completely for headers without an extended header and for ID3v2.4 headers with one. The round trip of written headers is proved for tags without extended header flags; it is false with them (ext_header_not_announced) and for the experimental flag of a v2.3 header (v23_experimental_wrong; v23_experimental_lost: no such tag that begins with a frame is found again)."
  },
  {
   "property": "C24",
   "status": "proved",
   "theorems": [
    "Lofty.Id3v2.parseV24_bits",
    "Lofty.Id3v2.parseV23_bits",
    "Lofty.Id3v2.parseV24_asV24",
    "Lofty.Id3v2.parseV23_asV23",
    "Lofty.Id3v2.asV24_inj",
    "Lofty.Id3v2.asV23_inj",
    "Lofty.Id3v2.asV24_defined",
    "Lofty.Id3v2.asV23_defined"
   ],
   "note": ""
  },
  {
   "property": "C25",
   "status": "proved",
   "theorems": [
    "Lofty.Id3v2.restrictions_byte",
    "Lofty.Id3v2.restrictions_value",
    "Lofty.Id3v2.restrictions_fields"
   ],
   "note": ""
  },
  {
   "property": "C26",
   "status": "partial",
   "theorems": [
    "Lofty.Id3v2.list_invariant",
    "Lofty.Id3v2.insert_spec",
    "Lofty.Id3v2.insert_once_partial",
    "Lofty.Id3v2.insert_reorders",
    "Lofty.Id3v2.remove_partial",
    "Lofty.Id3v2.get_remove",
    "Lofty.Id3v2.get_remove_other",
    "Lofty.Id3v2.remove_changes_get",
    "Lofty.Id3v2.removeUserText_spec",
    "Lofty.Id3v2.insertPicture_spec",
    "Lofty.Id3v2.removePictureType_spec",
    "Lofty.Id3v2.get_insert",
    "Lofty.Id3v2.get_insert_other",
    "Lofty.Id3v2.getUserText_insert",
    "Lofty.Id3v2.insert_date_keeps_old",
    "Lofty.Id3v2.insert_distinct",
    "Lofty.Id3v2.insert_once_per_tag"
   ],
   "note": "The invariants (no two frames that count as the same, no repetition of a frame that may occur once) are proved for every sequence of operations, and each operation is characterised. Not true of the code: that the order of other frames is kept by remove and by inserting a frame that may occur once (insert_reorders, remove_changes_get), and that inserting a date replaces the old one (insert_date_keeps_old)."
  },
  {
   "property": "C27",
   "status": "partial",
   "theorems": [
    "Lofty.Id3v2.text_rt",
    "Lofty.Id3v2.userText_rt",
    "Lofty.Id3v2.url_rt",
    "Lofty.Id3v2.url_empty",
    "Lofty.Id3v2.url_nul_cut",
    "Lofty.Id3v2.userUrl_rt_partial",
    "Lofty.Id3v2.userUrl_utf16_wrong",
    "Lofty.Id3v2.lang_rt",
    "Lofty.Id3v2.lang_refused",
    "Lofty.Id3v2.comment_utf16_nul_cut",
    "Lofty.Id3v2.keyValue_rt",
    "Lofty.Id3v2.picture_rt",
    "Lofty.Id3v2.picture_written",
    "Lofty.Id3v2.picture_v2",
    "Lofty.Id3v2.popularimeter_rt",
    "Lofty.Id3v2.popularimeter_capped",
    "Lofty.Id3v2.private_rt",
    "Lofty.Id3v2.ufid_rt",
    "Lofty.Id3v2.timestamp_rt",
    "Lofty.Id3v2.timestamp_refused",
    "Lofty.Id3v2.timestamp_invalid",
    "Lofty.Id3v2.ownership_rt",
    "Lofty.Id3v2.etco_rt",
    "Lofty.Id3v2.etco_reserved_lost",
    "Lofty.Id3v2.rva_rt",
    "Lofty.Id3v2.rva_long_peak_wrong",
    "Lofty.Id3v2.rva_peak_overflow",
    "Lofty.Id3v2.object_rt",
    "Lofty.Id3v2.object_mime_wrong",
    "Lofty.Id3v2.audioText_rt",
    "Lofty.Id3v2.syncText_rt",
    "Lofty.Id3v2.syncText_v23_wrong"
   ],
   "note": "All kinds are read back for every content valid for its encoding, except user URL frames: the code writes the URL in the encoding of the description and reads it as Latin-1 (userUrl_utf16_wrong), so the full statement is false of the code; userUrl_rt_partial covers Latin-1 and ASCII in UTF-8. Other disagreements: rva_long_peak_wrong, rva_peak_overflow, syncText_v23_wrong, object_mime_wrong, url_nul_cut, comment_utf16_nul_cut, etco_reserved_lost."
  },
  {
   "property": "C28",
   "status": "partial",
   "theorems": [
    "Lofty.Id3v2.tag_rt_partial",
    "Lofty.Id3v2.tag_rt_v4_partial",
    "Lofty.Id3v2.frame_rt",
    "Lofty.Id3v2.content_rt",
    "Lofty.Id3v2.header_rt",
    "Lofty.Id3v2.readFrame_writeFrame",
    "Lofty.Id3v2.read_invariant",
    "Lofty.Id3v2.nul_url_breaks_next",
    "Lofty.Id3v2.wfed_breaks_next",
    "Lofty.Id3v2.empty_frame_lost",
    "Lofty.Id3v2.data_length_lost",
    "Lofty.Id3v2.unsync_content_changed",
    "Lofty.Id3v2.encrypted_wrong",
    "Lofty.Id3v2.etco_not_written",
    "Lofty.Id3v2.bad_frame_fails_tag",
    "Lofty.Id3v2.chapter_padding_lost",
    "Lofty.Id3v2.bad_id_skipped",
    "Lofty.Id3v2.cover_skipped",
    "Lofty.Id3v2.empty_skipped",
    "Lofty.Id3v2.skipped_consumed",
    "Lofty.Id3v2.addFrame_spec",
    "Lofty.Id3v2.unsync_tag_v3",
    "Lofty.Id3v2.unsync_frame_v4",
    "Lofty.Id3v2.chapter_unsync_once"
   ],
   "note": "Proved for every list of frames whose contents are read back by themselves (C27), with chapters nested to any depth, any group bytes and flags and any padding. The full statement is false of the code: frames with compression, encryption, unsynchronisation or data length flags, OWNE and ETCO, empty bodies, and contents that stop early are not read back (witnesses)."
  },
  {
   "property": "C29",
   "status": "partial",
   "theorems": [
    "Lofty.Id3v2.writeFile_tagged",
    "Lofty.Id3v2.writeFile_untagged",
    "Lofty.Id3v2.writeFile_twice",
    "Lofty.Id3v2.writeFile_junk",
    "Lofty.Id3v2.marker_in_audio_loses_data",
    "Lofty.Id3v2.small_window_duplicates",
    "Lofty.Id3v2.extended_header_loses_audio",
    "Lofty.Ape.writeTo_tagged",
    "Lofty.Ape.writeTo_untagged",
    "Lofty.Ape.writeTo_twice",
    "Lofty.Ape.writeTo_read",
    "Lofty.Ape.leading_nil",
    "Lofty.Ape.leading_written",
    "Lofty.Ape.headerless_tag_loses_audio",
    "Lofty.Ape.leading_tag_kept",
    "Lofty.Ape.write_panics",
    "Lofty.Ape.unread_tag_duplicated",
    "Lofty.Ape.read_only_items_dropped",
    "Lofty.Id3v1.write_tagged",
    "Lofty.Id3v1.write_untagged"
   ],
   "note": "Proved for existing tags as the library writes them, with any audio and any neighbouring tags. The full statement is false of the code for foreign tags: an ID3v2 tag with an extended header (extended_header_loses_audio), an APE tag without header (headerless_tag_loses_audio), and for untagged files that contain the letters ID3 early (marker_in_audio_loses_data)."
  },
  {
   "property": "C30",
   "status": "proved",
   "theorems": [
    "Lofty.Ape.tag_rt",
    "Lofty.Ape.createTag_layout",
    "Lofty.Ape.createTag_total",
    "Lofty.Ape.readItems_rt",
    "Lofty.Ape.tag_read_only_lost",
    "Lofty.Ape.trailing_nul_lost",
    "Lofty.Ape.item_size_limit"
   ],
   "note": "tag_read_only_lost: the read-only mark of the whole tag is not read back. trailing_nul_lost: why texts must not end in NUL."
  },
  {
   "property": "C31",
   "status": "proved",
   "theorems": [
    "Lofty.Ape.validKey_iff",
    "Lofty.Ape.get_apply",
    "Lofty.Ape.history",
    "Lofty.Ape.history_distinct",
    "Lofty.Ape.insert_order",
    "Lofty.Ape.stepPair_field"
   ],
   "note": ""
  },
  {
   "property": "C32",
   "status": "partial",
   "theorems": [
    "Lofty.Item.insert_ok",
    "Lofty.Item.push_ok",
    "Lofty.Item.unsupported_no_effect",
    "Lofty.Item.insert_result",
    "Lofty.Item.removeKey_spec",
    "Lofty.Item.takeFilter_partial",
    "Lofty.Item.take_partial",
    "Lofty.Item.takeStrings_spec",
    "Lofty.Item.take_reorders",
    "Lofty.Item.retain_spec",
    "Lofty.Item.removeEmpty_spec",
    "Lofty.Item.reMap_spec",
    "Lofty.Item.getters",
    "Lofty.Item.history_partial",
    "Lofty.Item.history_exact",
    "Lofty.Item.supported_invariant",
    "Lofty.Item.setText_spec",
    "Lofty.Item.setNumber_get",
    "Lofty.Item.setNumber_other",
    "Lofty.Item.setDate_date",
    "Lofty.Item.removeDate_date",
    "Lofty.Item.aiff_date_dropped",
    "Lofty.Item.removePictureType_spec",
    "Lofty.Item.setPicture_spec",
    "Lofty.Item.removePicture_spec"
   ],
   "note": "All clauses of the statement are proved. Marked partial because the library documents that taking items keeps the order of the remaining ones, which is false (take_reorders): with take in a history the items of each key are as expected only up to order (history_partial); without it exactly (history_exact). The companion tag is modelled as present or absent only."
  },
  {
   "property": "C33",
   "status": "proved",
   "theorems": [
    "Lofty.Item.fromKey_mapKey",
    "Lofty.Item.mapKey_inj",
    "Lofty.Item.fromKey_case",
    "Lofty.Item.entries_distinct",
    "Lofty.Item.order_irrelevant",
    "Lofty.Item.mapKey_fromKey",
    "Lofty.Item.fromKey_isSome",
    "Lofty.Item.ape_keys_valid",
    "Lofty.Item.vorbis_keys_valid",
    "Lofty.Item.iff_keys_four",
    "Lofty.Item.writer_becomes_lyricist",
    "Lofty.Item.track_is_total"
   ],
   "note": "The shared keys are the twelve listed in `shared`; writer_becomes_lyricist and track_is_total show which of the keys wins."
  },
  {
   "property": "C34",
   "status": "proved",
   "theorems": [
    "Lofty.Timestamp.parse_strict_iff",
    "Lofty.Timestamp.fmt_render",
    "Lofty.Timestamp.verify_iff",
    "Lofty.Timestamp.parse_fmt",
    "Lofty.Timestamp.fromStr_fmt",
    "Lofty.Timestamp.parse_compact",
    "Lofty.Timestamp.parse_shape",
    "Lofty.Timestamp.parse_date_then_other",
    "Lofty.Timestamp.strict_accepts_month_13",
    "Lofty.Timestamp.blank_is_error"
   ],
   "note": "strict_accepts_month_13: strict parsing checks the form, not the ranges. blank_is_error: text of blanks only is an error in the lenient modes."
  },
  {
   "property": "C35",
   "status": "proved",
   "theorems": [
    "Lofty.Rating.musicbee_lawful",
    "Lofty.Rating.default_lawful",
    "Lofty.Rating.wmp_lawful",
    "Lofty.Rating.picard_lawful",
    "Lofty.Rating.id3v2_bytes",
    "Lofty.Rating.other_bytes",
    "Lofty.Rating.rounds",
    "Lofty.Rating.constructors_proper",
    "Lofty.Rating.custom_proper",
    "Lofty.Rating.mapped_proper",
    "Lofty.Rating.mapped_rt",
    "Lofty.Rating.mapped_total",
    "Lofty.Rating.fromStr_fmt_partial",
    "Lofty.Rating.fromStr_ok",
    "Lofty.Rating.bar_lost",
    "Lofty.Rating.empty_email_lost",
    "Lofty.Rating.custom_player_differs"
   ],
   "note": "Beyond the statement: stored ratings and the generic tag's text of a rating are read back; the latter fails exactly for emails with a bar (bar_lost). Custom providers are a parameter."
  },
  {
   "property": "C36",
   "status": "partial",
   "theorems": [
    "Lofty.Ilst.build_layout",
    "Lofty.Ilst.build_nil",
    "Lofty.Ilst.build_fails_iff",
    "Lofty.Ilst.parse_layout_partial",
    "Lofty.Ilst.parse_build_partial",
    "Lofty.Ilst.parse_ends",
    "Lofty.Ilst.parse_panics_only_wide",
    "Lofty.Ilst.utf16_garbled",
    "Lofty.Ilst.empty_text_lost",
    "Lofty.Ilst.other_flag_number",
    "Lofty.Ilst.short_playlist_lost",
    "Lofty.Ilst.signed_byte_unsigned",
    "Lofty.Ilst.type_set_swallows",
    "Lofty.Ilst.extended_panics",
    "Lofty.Ilst.flag_read",
    "Lofty.Ilst.genre_read"
   ],
   "note": "Layout and sizes are proved for every tag. The round trip is proved for every list of atoms with fourcc or freeform identifiers and UTF-8, integer, flag, picture and raw values; it is false of the code for UTF-16 texts, empty values, flags under other names and playlist identifiers not of 8 bytes (witnesses). Beyond the statement: reading ends on every content and panics only if the bytes hold a header with a 64-bit length."
  },
  {
   "property": "C37",
   "status": "partial",
   "theorems": [
    "Lofty.Mp4Write.in_place",
    "Lofty.Mp4Write.write_partial",
    "Lofty.Mp4Write.remove_partial",
    "Lofty.Mp4Write.create_udta",
    "Lofty.Mp4Write.create_meta",
    "Lofty.Mp4Write.build_cons_ne",
    "Lofty.Mp4Write.hdlr_replaced",
    "Lofty.Mp4Write.hdlr_removed",
    "Lofty.Mp4Write.small_padding_panics"
   ],
   "note": "For every well-formed file with a tag (no 64-bit sizes, no fragments, no 64-bit tables, below 4 GiB) and every tag: in_place shows that a tag that fits keeps the length and every byte outside of old atom and padding; write_partial and remove_partial give the whole new file in all cases, create_udta and create_meta for files without a tag. Missing: the excluded files. Witnesses: a meta with atoms but no ilst loses its first atom (hdlr_replaced, hdlr_removed), and preferred padding below 8 panics (small_padding_panics)."
  },
  {
   "property": "C38",
   "status": "partial",
   "theorems": [
    "Lofty.Mp4Write.offsets_follow_partial",
    "Lofty.Mp4Write.data_follows",
    "Lofty.Mp4Write.mapTable_table",
    "Lofty.Mp4Write.write_partial",
    "Lofty.Mp4Write.remove_partial",
    "Lofty.Mp4Write.offsets_stale",
    "Lofty.Mp4Write.offsets_stale_meta",
    "Lofty.Mp4Write.co64_error",
    "Lofty.Mp4Write.co64_stale",
    "Lofty.Mp4Write.tfhd_wrong"
   ],
   "note": "For every well-formed file with a tag and every tag, saving applies one renaming to all entries of all stco tables at any depth, and data outside of moov is found at the renamed offset; mapTable_table says what that means for a table. The negations for newly created udta/meta, 64-bit tables and fragments are proved with witnesses."
  },
  {
   "property": "C39",
   "status": "proved",
   "theorems": [
    "Lofty.Ilst.remove_spec",
    "Lofty.Ilst.remove_reorders",
    "Lofty.Ilst.replace_spec",
    "Lofty.Ilst.insert_spec",
    "Lofty.Ilst.run_spec",
    "Lofty.Ilst.history",
    "Lofty.Ilst.setNumber_keeps",
    "Lofty.Ilst.setTotal_keeps",
    "Lofty.Ilst.removeTotal_keeps",
    "Lofty.Ilst.large_number_lost",
    "Lofty.Ilst.getText_setText",
    "Lofty.Ilst.getFlag_setFlag",
    "Lofty.Ilst.rating_setRating",
    "Lofty.Ilst.pictures_insertPicture"
   ],
   "note": "large_number_lost: numbers above 65535 are truncated. remove_reorders: other atoms keep their data, not their order."
  },
  {
   "property": "C40",
   "status": "partial",
   "theorems": [
    "Lofty.FileType.quickGuess_magic",
    "Lofty.FileType.quickGuess_sound",
    "Lofty.FileType.quickGuess_total",
    "Lofty.FileType.magic_take",
    "Lofty.FileType.mpc_as_mp4",
    "Lofty.FileType.support_documented",
    "Lofty.FileType.primary_writable",
    "Lofty.FileType.writable_readable",
    "Lofty.FileType.extensions_known",
    "Lofty.FileType.fromExt_case",
    "Lofty.FileType.fromExt_listed",
    "Lofty.FileType.wave_not_listed",
    "Lofty.FileType.fromBuffer_magic",
    "Lofty.FileType.fromBuffer_probe",
    "Lofty.FileType.fromBuffer_id3",
    "Lofty.Probe.guess_magic",
    "Lofty.Probe.checkFrames_total",
    "Lofty.Probe.guess_total",
    "Lofty.Probe.guessFileType_spec",
    "Lofty.Probe.guess_sound",
    "Lofty.Probe.guess_id3",
    "Lofty.Probe.footer_not_skipped",
    "Lofty.Probe.guess_junk",
    "Lofty.Probe.late_options"
   ],
   "note": "Detection, the unmoved reader, soundness of every answer, and skipping of ID3v2 tags are proved for every content. Partial because of two contents the code takes for something else: Musepack data with ftyp at offset 4 (mpc_as_mp4) and an ID3v2 tag with a footer (footer_not_skipped). late_options: the junk limit of TaggedFile::read_from comes too late to be used."
  },
  {
   "property": "C41",
   "status": "partial",
   "theorems": [
    "Lofty.File.find_unique",
    "Lofty.File.Tagged.remove_eq",
    "Lofty.File.Tagged.insert_eq",
    "Lofty.File.step_sound",
    "Lofty.File.history_sound",
    "Lofty.File.step_latest",
    "Lofty.File.history_latest",
    "Lofty.File.saved_spec",
    "Lofty.File.remap_duplicates",
    "Lofty.File.containsType_iff",
    "Lofty.File.primary_history",
    "Lofty.File.step_properties"
   ],
   "note": "Proved for all histories of insertion, removal, clearing, change of file type, and changes of a tag through a mutable reference that leave its type alone. Changing a tag's type through that reference breaks the invariant (remap_duplicates)."
  },
  {
   "property": "C42",
   "status": "proved",
   "theorems": [
    "Lofty.Mpeg.numbers_table",
    "Lofty.Mpeg.numbers_eq",
    "Lofty.Mpeg.read_isSome",
    "Lofty.Mpeg.read_total",
    "Lofty.Mpeg.read_fields",
    "Lofty.Mpeg.read_nonzero",
    "Lofty.Mpeg.len_standard_partial",
    "Lofty.Mpeg.layer1_length_wrong"
   ],
   "note": "Beyond the statement: the frame length against the standard's formula (len_standard_partial: layers 2 and 3; layer1_length_wrong for layer 1)."
  },
  {
   "property": "C43",
   "status": "partial",
   "theorems": [
    "Lofty.Mpeg.verifySync_iff",
    "Lofty.Mpeg.searchFrom_spec",
    "Lofty.Mpeg.searchSync_some",
    "Lofty.Mpeg.searchSync_none",
    "Lofty.Mpeg.revLoop_spec",
    "Lofty.Mpeg.revSearch_spec",
    "Lofty.Mpeg.revSearch_progress",
    "Lofty.Mpeg.lastFrame_spec",
    "Lofty.Mpeg.lastFrame_found",
    "Lofty.Mpeg.border_header_missed",
    "Lofty.Mpeg.findNext_spec",
    "Lofty.Mpeg.findNext_first",
    "Lofty.Mpeg.hidden_frame"
   ],
   "note": "The forward search is proved in full. Reverse search: what it returns is a header with no later header in the same window, and repeated search ends; a header across the border of two windows is missed (border_header_missed). findNext: the first frame confirmed by its successor; hidden_frame shows a frame it misses."
  },
  {
   "property": "C44",
   "status": "partial",
   "theorems": [
    "Lofty.Mpeg.vbrProperties_total",
    "Lofty.Mpeg.cbrProperties_total",
    "Lofty.Mpeg.readProperties_total",
    "Lofty.Mpeg.vbr_read_bounds",
    "Lofty.Mpc.streamHeader_rate",
    "Lofty.Mpc.sv8Read_ends",
    "Lofty.Mpc.sv8Properties_partial",
    "Lofty.Mpc.many_samples_panic",
    "Lofty.Mpc.long_packet_panic",
    "Lofty.Mpc.sv7Bitrate_panic",
    "Lofty.Mpc.sv7_gapless_panic",
    "Lofty.Mpc.sv4Duration_total",
    "Lofty.OggProps.findLast_found",
    "Lofty.OggProps.findLast_sound",
    "Lofty.OggProps.findLast_ends",
    "Lofty.OggProps.readHeaders_total",
    "Lofty.OggProps.readHeaders_ok",
    "Lofty.OggProps.opusTimes_panic",
    "Lofty.OggProps.opusTimes_ok",
    "Lofty.OggProps.opusIdent_ok",
    "Lofty.OggProps.readOpus_panic",
    "Lofty.OggProps.readOpus_ends",
    "Lofty.OggProps.short_opus_panics",
    "Lofty.OggProps.opus_channels_panic",
    "Lofty.OggProps.readVorbis_total",
    "Lofty.OggProps.vorbisLength_ok",
    "Lofty.OggProps.speexLength_panic",
    "Lofty.OggProps.speexLength_zero",
    "Lofty.OggProps.speexRates_panic",
    "Lofty.OggProps.readSpeex_partial",
    "Lofty.OggProps.short_speex_panics",
    "Lofty.OggProps.opus_mask",
    "Lofty.OggProps.aac_mask_partial",
    "Lofty.OggProps.aac_seven_is_eight"
   ],
   "note": "Proved in full for MPEG, Vorbis and MPC SV4-6. False of the code for Opus, Speex, MPC SV7 and (beyond the 64-bit range) MPC SV8: the theorems say exactly for which streams, with concrete files as witnesses. Floating point computations (MPC replay gains, MPC SV7 duration) are not modelled."
  },
  {
   "property": "C45",
   "status": "partial",
   "theorems": [
    "Lofty.Aac.decode_spec",
    "Lofty.Aac.home_is_copyright",
    "Lofty.Aac.bitrate_le",
    "Lofty.Aac.findNext_step",
    "Lofty.Aac.findNext_spec",
    "Lofty.Aac.findNext_first",
    "Lofty.Aac.average_partial",
    "Lofty.Aac.readProperties_partial",
    "Lofty.Aac.zero_length_repeats",
    "Lofty.Aac.zero_length_hangs",
    "Lofty.Aac.cut_header_refused",
    "Lofty.Aac.tag_taken_for_frame"
   ],
   "note": "Progress and the average are proved for files whose frames declare a length of at least that of their header. zero_length_hangs: a frame of declared length zero makes the scan loop for ever."
  },
  {
   "property": "C46",
   "status": "proved",
   "theorems": [
    "Lofty.Mpc.size_length",
    "Lofty.Mpc.readSize_size",
    "Lofty.Mpc.readSize_ok",
    "Lofty.Mpc.readSize_error",
    "Lofty.Mpc.next_packet",
    "Lofty.Mpc.packets_spec",
    "Lofty.Mpc.sv8_read",
    "Lofty.Mpc.streamHeader_read",
    "Lofty.Mpc.replayGain_read",
    "Lofty.Mpc.encoderInfo_read",
    "Lofty.Mpc.short_packets"
   ],
   "note": ""
  },
  {
   "property": "C47",
   "status": "proved",
   "theorems": [
    "Lofty.Id3v2.scramble_involution",
    "Lofty.Id3v2.scramble_length",
    "Lofty.Id3v2.scramble_getElem",
    "Lofty.Id3v2.scrambleNext_bits",
    "Lofty.Id3v2.scrambleTable_cycle",
    "Lofty.Id3v2.sortEvents_stable",
    "Lofty.Id3v2.etco_written",
    "Lofty.Id3v2.etco_rt"
   ],
   "note": ""
  },
  {
   "property": "C48",
   "status": "proved",
   "theorems": [
    "Lofty.Rfind.search_found",
    "Lofty.Rfind.search_not_found",
    "Lofty.Rfind.rfind_default",
    "Lofty.Rfind.search_not_found_moves_reader",
    "Lofty.Rfind.search_buffer_too_small"
   ],
   "note": ""
  },
  {
   "property": "C49",
   "status": "partial",
   "theorems": [
    "Lofty.Convert.riff_rt",
    "Lofty.Convert.riff_strings",
    "Lofty.Convert.aiff_rt_partial",
    "Lofty.Convert.aiff_rt_single",
    "Lofty.Convert.toId3v1_single",
    "Lofty.Convert.id3v1_rt",
    "Lofty.Convert.vorbis_rt_partial",
    "Lofty.Convert.vorbis_strings",
    "Lofty.Convert.ape_items",
    "Lofty.Convert.ape_strings",
    "Lofty.Convert.ape_numbers",
    "Lofty.Convert.ape_flag",
    "Lofty.Convert.ape_unsupported",
    "Lofty.Convert.aiff_reorders",
    "Lofty.Convert.id3v1_artist_differs",
    "Lofty.Convert.id3v1_genre_case",
    "Lofty.Convert.vorbis_reorders",
    "Lofty.Convert.vorbis_rating_lost",
    "Lofty.Convert.ape_losses",
    "Lofty.Convert.ape_saved_directly"
   ],
   "note": "Proved for every generic tag: RIFF INFO in full; Vorbis comments in full except that the order of items changes if there is an encoder item (vorbis_reorders); APE for every text, number and flag, where a movement total becomes a second movement number (ape_losses); ID3v1 and AIFF with at most one item per key, otherwise another item than the first may be kept (aiff_reorders, id3v1_artist_differs)."
  },
  {
   "property": "C50",
   "status": "partial",
   "theorems": [
    "Lofty.Convert.vorbis_split_merge_partial",
    "Lofty.Convert.recode_plain",
    "Lofty.Convert.recode_canonical",
    "Lofty.Convert.recode_rating",
    "Lofty.Convert.ape_split_merge_unknown",
    "Lofty.Convert.ape_split_merge_plain",
    "Lofty.Convert.riff_split_merge",
    "Lofty.Convert.vorbis_split_merge_losses",
    "Lofty.Convert.ape_split_merge_losses",
    "Lofty.Convert.riff_unknown_lost",
    "Lofty.Convert.aiff_comments_lost"
   ],
   "note": "Proved: what happens to every item, for every tag. The full statement is false of the code; the witnesses are the theorems ending in losses and lost. MP4 is C52, ID3v2 is C57."
  },
  {
   "property": "C51",
   "status": "proved",
   "theorems": [
    "Lofty.Convert.ilst_rt",
    "Lofty.Convert.ilst_text",
    "Lofty.Convert.ilst_number",
    "Lofty.Convert.ilst_number_single",
    "Lofty.Convert.ilst_flag",
    "Lofty.Convert.ilst_rating",
    "Lofty.Convert.ilst_pictures",
    "Lofty.Convert.ilst_unsupported",
    "Lofty.Convert.locator_lost",
    "Lofty.Convert.odd_number_lost",
    "Lofty.Convert.tempo_not_converted"
   ],
   "note": "ilst_rt gives the whole resulting tag; the others are what a user sees of it. Unsynchronised lyrics come out as lyrics, because both share an atom."
  },
  {
   "property": "C52",
   "status": "partial",
   "theorems": [
    "Lofty.Convert.split_text",
    "Lofty.Convert.split_flag",
    "Lofty.Convert.split_foreign",
    "Lofty.Convert.split_covers_same",
    "Lofty.Convert.split_raw",
    "Lofty.Convert.split_track",
    "Lofty.Convert.split_disc",
    "Lofty.Convert.split_track_single",
    "Lofty.Convert.split_advisory",
    "Lofty.Convert.misplaced_lost",
    "Lofty.Convert.zero_pair_lost",
    "Lofty.Convert.old_rating_changed",
    "Lofty.Convert.atom_spread",
    "Lofty.Convert.track_text_is_total",
    "Lofty.Convert.tempo_not_converted"
   ],
   "note": "Proved for every MP4 tag: texts, flags, covers, atoms without generic key, values without a place. Numbers under the hypothesis that the number atoms hold no texts, the rating if its atoms hold only integers or unknown data. False of the code, with witnesses: texts in a cover atom and pictures elsewhere (misplaced_lost), pairs of two zeros (zero_pair_lost), the number 4 for explicit (old_rating_changed); atoms with several values are split up (atom_spread)."
  },
  {
   "property": "C53",
   "status": "proved",
   "theorems": [
    "Lofty.OggProps.vorbis_fields",
    "Lofty.OggProps.opus_fields",
    "Lofty.OggProps.speex_fields",
    "Lofty.Mpeg.xing_fields",
    "Lofty.Mpeg.xing_incomplete",
    "Lofty.Mpeg.vbri_fields",
    "Lofty.Mpc.sv4_fields",
    "Lofty.Mpc.sv7_fields"
   ],
   "note": "Each header is built from its documented fields and the reader is shown to report exactly these, for all values. The average bit rate of Musepack 4 to 6 (floating point) is not modelled."
  },
  {
   "property": "C54",
   "status": "partial",
   "theorems": [
    "Lofty.Id3v2.tag_v23_partial",
    "Lofty.Id3v2.genres_v23",
    "Lofty.Id3v2.genre_name",
    "Lofty.Id3v2.early_year_lost",
    "Lofty.Id3v2.date_parts_lost",
    "Lofty.Id3v2.date_reorders",
    "Lofty.Id3v2.last_person_lost",
    "Lofty.Id3v2.musicians_become_people",
    "Lofty.Id3v2.genre_parenthesis"
   ],
   "note": "tag_v23_partial gives the whole list of frames that is read back, up to order if there is a recording date. Missing: tags with several recording dates, years below 1000, people without a name at the end of the list, frames whose contents do not survive at all (see C26 to C28), and chapters that contain frames ID3v2.3 lacks."
  },
  {
   "property": "C55",
   "status": "partial",
   "theorems": [
    "Lofty.Convert.riff_direct",
    "Lofty.Convert.riff_direct_strings",
    "Lofty.Convert.aiff_direct",
    "Lofty.Convert.id3v1_direct",
    "Lofty.Convert.id3v1_direct_first",
    "Lofty.Convert.vorbis_direct",
    "Lofty.Convert.ape_direct_strings",
    "Lofty.Convert.ape_direct_numbers",
    "Lofty.Convert.riff_rating_changed",
    "Lofty.Convert.vorbis_direct_differs",
    "Lofty.Convert.ape_direct_zero",
    "Lofty.Convert.ape_saved_directly"
   ],
   "note": "Proved for every generic tag on the level of the items that are written. Partial because an APE tag with several items of one key keeps one of them when its bytes are read (ape_saved_directly), a total alone brings the number 0 with it (ape_direct_zero), RIFF ratings are not converted back (riff_rating_changed), and pictures are not covered here; ID3v2 is C56; MP4 is saved by conversion (C51)."
  },
  {
   "property": "C56",
   "status": "partial",
   "theorems": [
    "Lofty.Convert.id3v2_total",
    "Lofty.Convert.through_exists",
    "Lofty.Convert.id3v2_several",
    "Lofty.Convert.id3v2_several_plain",
    "Lofty.Convert.id3v2_first",
    "Lofty.Convert.id3v2_lyricist",
    "Lofty.Convert.id3v2_publisher",
    "Lofty.Convert.id3v2_encoder",
    "Lofty.Convert.id3v2_genre",
    "Lofty.Convert.id3v2_last",
    "Lofty.Convert.id3v2_advisory",
    "Lofty.Convert.id3v2_flag",
    "Lofty.Convert.id3v2_links",
    "Lofty.Convert.id3v2_recording",
    "Lofty.Convert.id3v2_numbers",
    "Lofty.Convert.id3v2_dates",
    "Lofty.Convert.id3v2_date",
    "Lofty.Convert.id3v2_ratings",
    "Lofty.Convert.id3v2_people",
    "Lofty.Convert.id3v2_comments",
    "Lofty.Convert.id3v2_lyrics",
    "Lofty.Convert.id3v2_gone",
    "Lofty.Convert.id3v2_every_key",
    "Lofty.Convert.id3v2_pictures",
    "Lofty.Convert.publisher_lost",
    "Lofty.Convert.ids_lost",
    "Lofty.Convert.description_lost",
    "Lofty.Convert.links_lost",
    "Lofty.Convert.number_erased",
    "Lofty.Convert.encoder_renamed"
   ],
   "note": "Proved for every generic tag and every key what comes back; id3v2_every_key says that no key is left out. Partial because the full statement is false of the code for the keys named by the witnesses (publisher_lost to encoder_renamed). The companion tag is C57."
  },
  {
   "property": "C57",
   "status": "partial",
   "theorems": [
    "Lofty.Convert.split_keeps",
    "Lofty.Convert.split_hidden",
    "Lofty.Convert.split_list",
    "Lofty.Convert.split_shown",
    "Lofty.Convert.split_append",
    "Lofty.Convert.shows_text",
    "Lofty.Convert.shows_number",
    "Lofty.Convert.shows_genre",
    "Lofty.Convert.shows_user",
    "Lofty.Convert.shows_link",
    "Lofty.Convert.shows_remark",
    "Lofty.Convert.shows_date",
    "Lofty.Convert.shows_picture",
    "Lofty.Convert.merge_total",
    "Lofty.Convert.merge_keeps_partial",
    "Lofty.Convert.companion_keeps",
    "Lofty.Convert.people_lost",
    "Lofty.Convert.empty_genre_lost",
    "Lofty.Convert.people_twice"
   ],
   "note": "merge_keeps_partial assumes that remaining frames with the id TIPL are people lists, which the reader guarantees; without it new people are lost (people_lost). Everything else is unconditional. What the generic tag alone would show is C56."
  },
  {
   "property": "C58",
   "status": "partial",
   "theorems": [
    "Lofty.Mp4Read.read_tag",
    "Lofty.Mp4Read.read_silent",
    "Lofty.Mp4Read.read_no_meta",
    "Lofty.Mp4Read.read_no_ilst",
    "Lofty.Mp4Read.save_read_partial",
    "Lofty.Mp4Read.remove_read_partial",
    "Lofty.Mp4Read.create_read_partial",
    "Lofty.Mp4Read.create_meta_read_partial",
    "Lofty.Mp4Read.not_asked",
    "Lofty.Mp4Read.saved_not_read",
    "Lofty.Mp4Read.removed_unreadable",
    "Lofty.Mp4Read.removed_unreadable_end",
    "Lofty.Mp4Read.track_tag_read",
    "Lofty.Mp4Read.terminator_hides_tracks",
    "Lofty.Mp4Read.wide_sound_hides_tag",
    "Lofty.Mp4Read.limit_unreadable"
   ],
   "note": "For well-formed files with one tag (Clear). Without that the claim fails: a second ilst in meta (saved_not_read), a track-level udta (track_tag_read), a udta ending in zeros (terminator_hides_tracks), sound with a 64-bit length in front of the tag (wide_sound_hides_tag), removing a tag that comes first in meta (removed_unreadable), a tag over the allocation limit (limit_unreadable). Properties of the tracks found are not modelled."
  },
  {
   "property": "C59",
   "status": "partial",
   "theorems": [
    "Lofty.OggWrite.save_file",
    "Lofty.OggWrite.save_succeeds",
    "Lofty.OggWrite.save_headers",
    "Lofty.OggWrite.last_save_wins",
    "Lofty.OggWrite.save_again",
    "Lofty.OggWrite.save_read",
    "Lofty.OggWrite.save_opus",
    "Lofty.OggWrite.save_vorbis",
    "Lofty.OggWrite.save_speex",
    "Lofty.OggWrite.save_no_panic",
    "Lofty.OggWrite.damage_cuts",
    "Lofty.OggWrite.shared_page_cuts",
    "Lofty.OggWrite.other_stream_renumbered",
    "Lofty.OggWrite.vendor_ignored"
   ],
   "note": "save_file speaks of the pages up to the first byte that does not begin a page; behind that the audio is lost (damage_cuts, shared_page_cuts). Pages of other streams are kept but renumbered (other_stream_renumbered). The vendor string of the tag is not saved (vendor_ignored). Header packets without content are assumed away in save_headers and save_read, since no page is written for them."
  },
  {
   "property": "C60",
   "status": "partial",
   "theorems": [
    "Lofty.FileTags.mpeg_saves_partial",
    "Lofty.FileTags.mpeg_saves_properties_partial",
    "Lofty.FileTags.aac_saves_partial",
    "Lofty.FileTags.mac_saves_partial",
    "Lofty.FileTags.mpc_saves_partial",
    "Lofty.FileTags.wavpack_saves_partial",
    "Lofty.FileTags.kept_id3v2",
    "Lofty.FileTags.kept_ape",
    "Lofty.FileTags.kept_id3v1",
    "Lofty.FileTags.save_ok_iff",
    "Lofty.FileTags.saves_succeed",
    "Lofty.FileTags.lyrics_hide_ape",
    "Lofty.FileTags.ape_taken_for_id3v1",
    "Lofty.FileTags.unread_tags_change_duration",
    "Lofty.FileTags.id3v2_changes_aac_duration",
    "Lofty.FileTags.wavpack_read_panics",
    "Lofty.FileTags.mac_read_panics",
    "Lofty.FileTags.mac_leading_ape_fails"
   ],
   "note": "For audio that does not begin or end like a tag (Audio), and ID3v2.4 tags without extended header and unsynchronisation (Save.Ok). An APE tag whose text looks like an ID3v1 tag is excluded (ape_taken_for_id3v1). WavPack: without ID3v2 saves, which that format does not support. Durations of AAC files are not kept (id3v2_changes_aac_duration), nor those of MPEG files whose tags are not read (unread_tags_change_duration)."
  },
  {
   "property": "C61",
   "status": "partial",
   "theorems": [
    "Lofty.Lossless.flac_fields",
    "Lofty.Lossless.wav_fields",
    "Lofty.Lossless.wav_extensible_fields",
    "Lofty.Lossless.wav_no_panic",
    "Lofty.Lossless.aiff_rate",
    "Lofty.Lossless.aiff_rate_int",
    "Lofty.Lossless.aiff_fields",
    "Lofty.Lossless.aifc_fields",
    "Lofty.Lossless.mac_fields",
    "Lofty.Lossless.mac_old_fields",
    "Lofty.Lossless.wav_channels_cut",
    "Lofty.Lossless.aiff_unnormalised",
    "Lofty.Lossless.aiff_wraps",
    "Lofty.Lossless.mac_single_block",
    "Lofty.Lossless.mac_empty_frame"
   ],
   "note": "Sizes of samples and files are bounded as in the theorems (samples below 2^39, WAV audio below 4 GiB). Headers that the code misreads are excluded and witnessed. Floating point numbers are modelled as IEEE 754 without subnormal numbers and overflow."
  },
  {
   "property": "C62",
   "status": "partial",
   "theorems": [
    "Lofty.WavPack.wavpack_fields",
    "Lofty.WavPack.wavpack_custom_fields",
    "Lofty.WavPack.wavpack_total",
    "Lofty.WavPack.multichannel_not_counted",
    "Lofty.WavPack.four_channels",
    "Lofty.WavPack.channels_drift",
    "Lofty.FileTags.wavpack_saves_properties",
    "Lofty.FileTags.mac_saves_properties",
    "Lofty.FileTags.mac_overall_short",
    "Lofty.FileTags.wavpack_behind_id3v2"
   ],
   "note": "Multichannel WavPack files are excluded: at standard rates the number of channels is always reported as 0 (multichannel_not_counted)."
  },
  {
   "property": "C63",
   "status": "partial",
   "theorems": [
    "Lofty.Mp4Props.aac_fields",
    "Lofty.Mp4Props.escaped_fields",
    "Lofty.Mp4Props.als_fields",
    "Lofty.Mp4Props.alac_fields",
    "Lofty.Mp4Props.flac_mp4_fields",
    "Lofty.Mp4Props.file_props_partial",
    "Lofty.Mp4Props.save_props_partial",
    "Lofty.Mp4Props.remove_props_partial",
    "Lofty.Mp4Props.create_props_partial",
    "Lofty.Mp4Props.type_garbled",
    "Lofty.Mp4Props.channels_garbled",
    "Lofty.Mp4Props.explicit_garbled",
    "Lofty.Mp4Props.seven_one",
    "Lofty.Mp4Props.reserved_rate",
    "Lofty.Mp4Props.als_channels",
    "Lofty.Mp4Props.second_entry",
    "Lofty.Mp4Props.alac_unknown",
    "Lofty.Mp4Props.dfla_short",
    "Lofty.Mp4Props.duration_panics",
    "Lofty.Mp4Props.minf_first"
   ],
   "note": "The file must be unambiguous as in C37 and C58, minf must be the last atom of its mdia, and the tables must be unique (Spec/Mp4Props, Audio). The layouts that the code misreads are excluded and witnessed. Media shorter than 8 milliseconds are excluded from the bit rates of file_props_partial, not from the saving theorems."
  },
  {
   "property": "C64",
   "status": "partial",
   "theorems": [
    "Lofty.IffFiles.wav_save_partial",
    "Lofty.IffFiles.wav_saves_partial",
    "Lofty.IffFiles.aiff_save_partial",
    "Lofty.IffFiles.aiff_saves_partial",
    "Lofty.IffFiles.grown_size",
    "Lofty.IffFiles.junk_swallows_data",
    "Lofty.IffFiles.second_tag_stays"
   ],
   "note": "The saves that the code gets wrong are excluded by Id3Save.Safe and witnessed (grown_size, junk_swallows_data); files with a second ID3v2 chunk or INFO list are excluded and witnessed (second_tag_stays). ID3v2 tags are ID3v2.4 tags without extended header and unsynchronisation. The file must stay below 4 GiB, without bytes behind the last chunk."
  },
  {
   "property": "C65",
   "status": "partial",
   "theorems": [
    "Lofty.Picture.png_info_partial",
    "Lofty.Picture.jpeg_info_partial",
    "Lofty.Picture.info_total_partial",
    "Lofty.Picture.info_other",
    "Lofty.Picture.info_of_image",
    "Lofty.Picture.png_grey_alpha",
    "Lofty.Picture.jpeg_first_frame",
    "Lofty.Picture.jpeg_fill_bytes",
    "Lofty.Picture.jpeg_length_panics",
    "Lofty.Picture.jpeg_depth_panics"
   ],
   "note": "The images the code misreads are excluded and witnessed."
  },
  {
   "property": "C66",
   "status": "partial",
   "theorems": [
    "Lofty.Picture.insert_spec",
    "Lofty.Picture.insert_infers",
    "Lofty.Picture.insert_fails_partial",
    "Lofty.Picture.icons_unique_partial",
    "Lofty.Picture.remove_spec",
    "Lofty.Picture.removeType_spec",
    "Lofty.Picture.set_spec",
    "Lofty.Picture.set_duplicates_icon",
    "Lofty.Picture.failed_insert_loses_icon"
   ],
   "note": "Uniqueness of icons holds except for set_picture inside the list, and a failed insertion changes nothing except for icons; both exceptions are witnessed."
  },
  {
   "property": "C67",
   "status": "partial",
   "theorems": [
    "Lofty.Save.rejects",
    "Lofty.Save.accepts",
    "Lofty.Save.removes",
    "Lofty.Save.remove_rejects",
    "Lofty.Save.empty_removes",
    "Lofty.Save.saves_all",
    "Lofty.Save.empty_panics",
    "Lofty.Save.empty_erases_comments",
    "Lofty.Save.empty_erases_ilst",
    "Lofty.Save.empty_comments_panic",
    "Lofty.Save.flac_to_other_panics",
    "Lofty.Save.flac_keeps_pictures",
    "Lofty.Save.saved_halfway",
    "Lofty.Save.others_stay",
    "Lofty.Save.others_stay_file"
   ],
   "note": "All combinations are covered except empty tags of a type that the format does not have; those, the halfway saves and the option without effect are witnessed."
  },
  {
   "property": "C68",
   "status": "partial",
   "theorems": [
    "Lofty.Save.audio_type_partial",
    "Lofty.Save.verified_append",
    "Lofty.Save.verified_behind",
    "Lofty.Save.verified_footer",
    "Lofty.Save.flac_type",
    "Lofty.Save.mp4_type",
    "Lofty.Save.mp4_type_create",
    "Lofty.Save.ogg_type",
    "Lofty.Save.wav_type_partial",
    "Lofty.Save.aiff_type_partial",
    "Lofty.Save.footer_hides"
   ],
   "note": "For the files and tags that the theorems about saves cover (C16, C37, C59, C60, C64). A footer shifts the search for frames by ten bytes: a witness is recorded."
  },
  {
   "property": "C69",
   "status": "partial",
   "theorems": [
    "Lofty.Opened.ogg_end_to_end",
    "Lofty.Opened.flac_end_to_end",
    "Lofty.Opened.around_end_to_end_partial",
    "Lofty.Opened.wav_end_to_end_partial",
    "Lofty.Opened.aiff_end_to_end_partial",
    "Lofty.Opened.mp4_end_to_end_partial",
    "Lofty.Opened.mp4_create_end_to_end_partial",
    "Lofty.Opened.ready_frames",
    "Lofty.Opened.ready_items",
    "Lofty.Opened.ready_save",
    "Lofty.Opened.around_ready_end_to_end_partial",
    "Lofty.Opened.empty_texts_lost",
    "Lofty.Opened.encoder_appears",
    "Lofty.Opened.unsavable"
   ],
   "note": "For WAV and AIFF, what the theorems about the formats (C29, C60) need of the frames of the tag is a hypothesis; for MPEG, AAC, Monkey's Audio, Musepack and WavPack it follows from conditions on the generic tag (around_ready_end_to_end_partial), without texts with NUL, links beyond Latin-1, equal pictures, two APE items of one name. ID3v2 texts are those of the conversion (Through, C56). ParseOptions without properties; companion tags are not modelled."
  },
  {
   "property": "C70",
   "status": "partial",
   "theorems": [
    "Lofty.Modes.modes_partial",
    "Lofty.Modes.id3v2_le",
    "Lofty.Modes.comments_le",
    "Lofty.Modes.ilst_le",
    "Lofty.Modes.aac_le",
    "Lofty.Modes.wav_le",
    "Lofty.Modes.aiff_le",
    "Lofty.Modes.mpeg_le",
    "Lofty.Modes.wavPackFile_le",
    "Lofty.Modes.macFile_le",
    "Lofty.Modes.mp4File_le",
    "Lofty.Modes.junk_modes"
   ],
   "note": "For MPEG files, if an ID3v2 tag was found or there is no ID3 marker in the bytes that may be searched for one; without this it is false (junk_modes). Properties for the formats whose reading of properties is modelled with the mode (AAC, WAV, AIFF, MPEG, WavPack, Monkey's Audio, MP4). Companion tags are not modelled."
  },
  {
   "property": "C71",
   "status": "partial",
   "theorems": [
    "Lofty.Safe.opening_panics_partial",
    "Lofty.Safe.opening_ends_partial",
    "Lofty.Safe.opening_never_panics",
    "Lofty.Safe.opening_without_covers",
    "Lofty.Safe.opening_panics"
   ],
   "note": "False in general (opening_panics). Trap names the files of each type for which it may fail; there are none for MP3, AAC, Musepack, WAV and AIFF. For the end of the reading of chapters, as many levels of nesting are allowed as the file has bytes (the code recurses without limit, so the stack is not modelled), and decompressed frames are no longer than compressed ones. Failing allocations are not modelled except in MP4 files."
  },
  {
   "property": "C72",
   "status": "partial",
   "theorems": [
    "Lofty.Accessor.generic_history",
    "Lofty.Accessor.id3v1_history",
    "Lofty.Accessor.vorbis_history_partial",
    "Lofty.Accessor.vorbis_set_remove",
    "Lofty.Accessor.riff_history_partial",
    "Lofty.Accessor.aiff_history_partial",
    "Lofty.Accessor.ape_history_partial",
    "Lofty.Accessor.mp4_history_partial",
    "Lofty.Accessor.id3v2_history_partial",
    "Lofty.Accessor.id3v2_date_ignored",
    "Lofty.Accessor.id3v2_date_lost",
    "Lofty.Accessor.id3v2_texts_change",
    "Lofty.Accessor.pairs_share_removal",
    "Lofty.Accessor.pairs_share_zero",
    "Lofty.Accessor.mp4_number_cut",
    "Lofty.Accessor.id3v1_cuts",
    "Lofty.Accessor.riff_removed_artist_shown",
    "Lofty.Accessor.vorbis_track_changes_artist",
    "Lofty.Accessor.aiff_removed_comment_shown"
   ],
   "note": "False in general (id3v2_date_ignored and the theorems after it). Generic tag: for all fields the type supports. ID3v1: for the values it has room for. Vorbis, RIFF: no repeated keys among those of the accessors. AIFF: no COMT comments. APE, MP4, ID3v2: 0 counts as no number, and no number is removed while there is a total; MP4 numbers of 16 bits and no repeated atoms; ID3v2 texts without NUL, plain genres, no setting of dates, no repeated frames."
  },
  {
   "property": "C73",
   "status": "proved",
   "theorems": [
    "Lofty.Accessor.generic_others",
    "Lofty.Accessor.vorbis_others",
    "Lofty.Accessor.ape_others",
    "Lofty.Accessor.mp4_others",
    "Lofty.Accessor.riff_others",
    "Lofty.Accessor.aiff_others",
    "Lofty.Accessor.id3v2_others"
   ],
   "note": "On the tags of the formats as modelled (Model/Accessor); the order of Vorbis comments, MP4 atoms and ID3v2 frames may change, since removing swaps items. The items a field is stored in are listed in Spec/AccessorOthers, apart from the tables of the model."
  },
  {
   "property": "C74",
   "status": "partial",
   "theorems": [
    "Lofty.Opened.around_removed_partial",
    "Lofty.Opened.wav_removed",
    "Lofty.Opened.aiff_removed",
    "Lofty.Opened.flac_removed_partial",
    "Lofty.Opened.ogg_removed",
    "Lofty.Opened.mp4_removed_partial",
    "Lofty.Opened.id3v1_removal_adds",
    "Lofty.Opened.encoder_stays"
   ],
   "note": "Missing: tags in MPEG-like files and FLAC files that were not written by the library, or with a footer; strict mode in the files of the first theorem; MP4 files whose tag is the first atom of meta (there the file becomes unreadable: removed_unreadable of C58). For OGG the removal is assumed to succeed. Disagreements: removing an ID3v1 tag from a file without one adds an empty one (id3v1_removal_adds); in OGG files a tag with the encoder stays (encoder_stays)."
  },
  {
   "property": "C75",
   "status": "partial",
   "theorems": [
    "Lofty.Opened.without_properties_partial",
    "Lofty.Opened.tags_alone",
    "Lofty.Opened.whole_tags_partial",
    "Lofty.Opened.mp4_without_properties_partial",
    "Lofty.Opened.mp4_track_tag",
    "Lofty.Opened.not_read"
   ],
   "note": "Missing: MP4 files that are not made of well-formed atoms, or with user data in their tracks. There the claim is false: user data of a track is taken for the tag of the file, but only if the properties are read (mp4_track_tag)."
  },
  {
   "property": "C76",
   "status": "partial",
   "theorems": [
    "Lofty.Opened.without_tags_partial",
    "Lofty.Opened.mp4_without_tags_partial",
    "Lofty.Opened.wav_without_tags_partial",
    "Lofty.Opened.flac_pictures_shown",
    "Lofty.Opened.mac_rate",
    "Lofty.Opened.mpeg_long_ape",
    "Lofty.Opened.wav_lost",
    "Lofty.Opened.mp4_terminator"
   ],
   "note": "Missing: APE tags in Monkey's Audio, Musepack and MPEG files, ID3v2 tags in Musepack, MPEG and AAC files, broken RIFF INFO lists, MP4 files not made of well-formed atoms. For most of these the claim is false: mac_rate (another bit rate), mpeg_long_ape (the file cannot be read without tags), wav_lost and mp4_terminator (the properties can be read only without tags). OGG files show an empty tag, FLAC files with pictures a tag with them (flac_pictures_shown)."
  },
  {
   "property": "C77",
   "status": "partial",
   "theorems": [
    "Lofty.Covers.without_covers_partial",
    "Lofty.Covers.file_without_covers_partial",
    "Lofty.Covers.ilst_without_covers_partial",
    "Lofty.Covers.mp4_without_covers_partial",
    "Lofty.Covers.order_differs",
    "Lofty.Covers.date_differs",
    "Lofty.Covers.flac_tag_gone",
    "Lofty.Covers.covr_swallows"
   ],
   "note": "Missing: the recording date of ID3v2.3 tags with implicit conversions, and MP4 tags other than those the library writes. There the claim is false: date_differs, covr_swallows. The order of the items may differ (order_differs), and a FLAC file with pictures but no comments has a tag only if its pictures are read (flac_tag_gone)."
  },
  {
   "property": "C78",
   "status": "partial",
   "theorems": [
    "Lofty.FileTags.last_saves_decide_partial",
    "Lofty.FileTags.order_irrelevant_partial",
    "Lofty.FileTags.save_again_partial",
    "Lofty.FileTags.empty_id3v1_toggles",
    "Lofty.Flac.flac_again_partial",
    "Lofty.Flac.flac_settles",
    "Lofty.Flac.second_save_differs",
    "Lofty.OggWrite.last_save_wins",
    "Lofty.OggWrite.save_again",
    "Lofty.IffFiles.wav_id3v2_again_partial",
    "Lofty.IffFiles.aiff_id3v2_again_partial",
    "Lofty.IffFiles.wav_info_last_partial",
    "Lofty.IffFiles.aiff_text_last_partial",
    "Lofty.IffFiles.wav_second_save_differs",
    "Lofty.Mp4Read.mp4_again_partial",
    "Lofty.Mp4Read.mp4_settles",
    "Lofty.Mp4Read.mp4_second_save_differs"
   ],
   "note": "Missing: empty ID3v1 tags, FLAC files without padding saved with preferred padding, ID3v2 tags of WAV files that grow at the end or shrink before the audio, MP4 tags that just miss fitting in the padding behind them. In all of these the claim is false: empty_id3v1_toggles, second_save_differs, wav_second_save_differs, mp4_second_save_differs. For FLAC and MP4 files nothing changes from the second save on (flac_settles, mp4_settles)."
  },
  {
   "property": "C79",
   "status": "partial",
   "theorems": [
    "Lofty.Opened.flac_shown",
    "Lofty.Opened.wav_shown",
    "Lofty.Opened.wav_extensible_shown",
    "Lofty.Opened.aiff_shown_partial",
    "Lofty.Opened.aiff_channels_cut",
    "Lofty.Opened.wavpack_shown",
    "Lofty.Opened.mac_shown",
    "Lofty.Opened.opus_shown",
    "Lofty.Opened.vorbis_shown",
    "Lofty.Opened.speex_shown",
    "Lofty.Opened.mpeg_shown",
    "Lofty.Opened.aac_shown",
    "Lofty.Opened.mpc8_shown",
    "Lofty.Opened.mpc7_shown",
    "Lofty.Opened.mpc4_shown",
    "Lofty.Opened.mp4_shown_partial",
    "Lofty.Opened.mp4_escaped_shown_partial",
    "Lofty.Opened.mp4_als_shown_partial",
    "Lofty.Opened.mp4_alac_shown_partial",
    "Lofty.Opened.mp4_flac_shown_partial"
   ],
   "note": "Missing: AIFF channels and sample sizes above 255, which are cut to one byte (witness aiff_channels_cut); in MP4, media shorter than 8 milliseconds or of more than 2^32 bits per second; MPEG bit rates, which are those of the frames and shown by C15 and C43."
  },
  {
   "property": "C80",
   "status": "partial",
   "theorems": [
    "Lofty.Id3v2.crc_value",
    "Lofty.Id3v2.crc_detects_burst",
    "Lofty.Id3v2.tag_checksum_partial",
    "Lofty.Id3v2.tag_detects_burst",
    "Lofty.Id3v2.restricted_first_byte",
    "Lofty.Id3v2.padding_not_checked",
    "Lofty.Id3v2.first_byte_not_checked"
   ],
   "note": "Missing because the code does otherwise: padding is not covered (padding_not_checked), and with restrictions the first byte of the frames is left out (restricted_first_byte, witness first_byte_not_checked)."
  },
  {
   "property": "C81",
   "status": "partial",
   "theorems": [
    "Lofty.Timestamp.cmp_order",
    "Lofty.Timestamp.cmp_first_difference",
    "Lofty.Timestamp.text_order_partial",
    "Lofty.Timestamp.read_order",
    "Lofty.Timestamp.gap_not_printed",
    "Lofty.Timestamp.wide_years_misordered",
    "Lofty.Id3v2.same_equivalence",
    "Lofty.Id3v2.hash_agrees",
    "Lofty.Id3v2.equal_frames_hash_alike",
    "Lofty.Id3v2.audio_text_hash",
    "Lofty.Id3v2.timestamp_frame_order_partial",
    "Lofty.Id3v2.event_order_partial",
    "Lofty.Id3v2.timestamp_frames_equal_in_order_only"
   ],
   "note": "Missing because the code does otherwise: timestamps with gaps or with components too wide for their digits, which no text is read as (gap_not_printed, wide_years_misordered); timestamp frames that compare as equal without being equal (timestamp_frames_equal_in_order_only)."
  },
  {
   "property": "C82",
   "status": "partial",
   "theorems": [
    "Lofty.Save.saved_contains_dump_partial",
    "Lofty.Save.flac_contains_dump_partial",
    "Lofty.Save.ogg_contains_dump_partial",
    "Lofty.Save.mp4_contains_dump_partial",
    "Lofty.Save.mp4_new_contains_dump_partial",
    "Lofty.Save.generic_dump",
    "Lofty.Save.empty_dump",
    "Lofty.Save.vendor_not_saved",
    "Lofty.Save.footer_not_saved",
    "Lofty.Save.empty_id3v1_dump"
   ],
   "note": "Missing because the code does otherwise: the vendor of Vorbis comments, which is taken from the file (vendor_not_saved), ID3v2 footers in WAV and AIFF files (footer_not_saved), empty ID3v1 tags and comments (empty_id3v1_dump), and APE tags in files with an APE tag eight bytes behind the ID3v2 tags. MP4 files are those with a tag already or without user data."
  },
  {
   "property": "C83",
   "status": "partial",
   "theorems": [
    "Lofty.Resolvers.registry_grows",
    "Lofty.Resolvers.registered_stays_partial",
    "Lofty.Resolvers.register_new",
    "Lofty.Resolvers.ext_unclaimed_partial",
    "Lofty.Resolvers.ext_claimed",
    "Lofty.Resolvers.content_unclaimed",
    "Lofty.Resolvers.content_claimed",
    "Lofty.Resolvers.claimed_read",
    "Lofty.Resolvers.poisoned_forever",
    "Lofty.Resolvers.failed_call_poisons",
    "Lofty.Resolvers.twice_registered",
    "Lofty.Resolvers.capital_extension",
    "Lofty.Resolvers.same_type_twice"
   ],
   "note": "Missing because the code does otherwise: a failed registration or lookup panics with the lock held, and from then on no extension at all is known to threads that use resolvers (failed_call_poisons, poisoned_forever, twice_registered). A resolver whose extension has capital letters is never found by it (capital_extension)."
  },
  {
   "property": "C84",
   "status": "partial",
   "theorems": [
    "Lofty.Position.just_opened",
    "Lofty.Position.id3v1_anywhere_partial",
    "Lofty.Position.flac_anywhere_partial",
    "Lofty.Position.mp4_anywhere_partial",
    "Lofty.Position.ape_anywhere_partial",
    "Lofty.Position.at_end_refused",
    "Lofty.Position.ogg_from_cursor",
    "Lofty.Position.id3v2_from_cursor",
    "Lofty.Position.frame_lost",
    "Lofty.Position.not_anywhere",
    "Lofty.Position.stream_lost",
    "Lofty.Position.info_needs_header",
    "Lofty.Position.info_anywhere_partial",
    "Lofty.Position.text_needs_header",
    "Lofty.Position.id3v2_chunk_anywhere_partial",
    "Lofty.Position.info_in_sound",
    "Lofty.Position.inner_aiff_refused"
   ],
   "note": "Missing because the code does otherwise: an ID3v2 tag and the comments of an Ogg file are put in front of what is behind the cursor, and everything in front of the cursor is lost (id3v2_from_cursor, ogg_from_cursor; witnesses frame_lost, not_anywhere, stream_lost). RIFF INFO lists and ID3v2 chunks depend on the size of the WAV or AIFF file that begins at the cursor: proved for the same size, a witness for another (info_in_sound: the list is put into the samples). AIFF text chunks need such a file too (text_needs_header) and may be refused then (inner_aiff_refused); no more is stated of them."
  },
  {
   "property": "C85",
   "status": "partial",
   "theorems": [
    "Lofty.Paths.save_path",
    "Lofty.Paths.remove_path_ok_partial",
    "Lofty.Paths.remove_path_same",
    "Lofty.Paths.remove_path_fails",
    "Lofty.Paths.remove_path_never",
    "Lofty.Paths.remove_path_extension",
    "Lofty.Paths.song_kept",
    "Lofty.Paths.remove_path_wrong"
   ],
   "note": "Missing because the code does otherwise: the file is opened for reading only, so nothing is ever removed (remove_path_fails, remove_path_wrong; witness song_kept). Proved is that success is never reported wrongly if the extension tells the format, and that the file is not changed. That the operating system refuses writes to such a file is part of the model."
  },
  {
   "property": "C86",
   "status": "proved",
   "theorems": [
    "Lofty.Alloc.repeat_safe",
    "Lofty.Alloc.vec_never_undefined",
    "Lofty.Alloc.vec_exact",
    "Lofty.Alloc.vec_succeeds",
    "Lofty.Alloc.vec_limit",
    "Lofty.Alloc.capacity_exact",
    "Lofty.Alloc.longer_undefined",
    "Lofty.Alloc.limit_not_bytes",
    "Lofty.Alloc.key_is_utf8"
   ],
   "note": "longer_undefined shows that the condition on the length in repeat_safe is needed (all callers start with an empty vector); limit_not_bytes that the limit counts elements, while its documentation says bytes."
  },
  {
   "property": "C87",
   "status": "partial",
   "theorems": [
    "Lofty.Storage.saved",
    "Lofty.Storage.refused_partial",
    "Lofty.Storage.panicked_partial",
    "Lofty.Storage.ogg_refused",
    "Lofty.Storage.flac_kept",
    "Lofty.Storage.id3v1_kept",
    "Lofty.Storage.cut_short",
    "Lofty.Storage.all_partial",
    "Lofty.Storage.audio_lost",
    "Lofty.Storage.half_saved",
    "Lofty.Storage.grown_damages",
    "Lofty.Storage.not_all_kept"
   ],
   "note": "Proved: whatever the library refuses leaves the file as it was, for all tags and files; FLAC comments and ID3v1 tags lose nothing on a full device. False for the other tags on a full device (audio_lost: the file is truncated first; cut_short says exactly what is left), for several tags (half_saved; all_partial says exactly what is left), and for a panic while an ID3v2 tag grows at the end of a WAV or AIFF file (grown_damages). What a full device leaves of ID3v2 tags in WAV and AIFF files is not stated."
  },
  {
   "property": "C88",
   "status": "partial",
   "theorems": [
    "Lofty.Bound.opened",
    "Lofty.Bound.unsaved",
    "Lofty.Bound.saved",
    "Lofty.Bound.ledger_sound",
    "Lofty.Bound.disk_partial",
    "Lofty.Bound.reflects_partial",
    "Lofty.Bound.wav_disk_partial",
    "Lofty.Bound.aiff_disk_partial",
    "Lofty.Bound.wav_reflects_partial",
    "Lofty.Bound.aiff_reflects_partial",
    "Lofty.Bound.ogg_disk_partial",
    "Lofty.Bound.flac_disk_partial",
    "Lofty.Bound.mp4_disk_partial",
    "Lofty.Bound.memory_written",
    "Lofty.Bound.removal_unsaved",
    "Lofty.Bound.clear_unsaved",
    "Lofty.Bound.read_only_unsaved",
    "Lofty.Bound.empty_id3v1_saved",
    "Lofty.Bound.unstorable_kept"
   ],
   "note": "Proved for all histories: what is in memory and which tag of each type was written last (ledger_sound); for MPEG, AAC, Monkey's Audio, Musepack and WavPack files whose tags, if any, were saved with the same options, for WAV and AIFF files as in C64, and for OGG, FLAC and MP4 files (the latter with a tag already, C58), what reopening the file shows. False after removals (removal_unsaved, clear_unsaved), for read-only tags, empty ID3v1 tags and tags of which nothing can be stored. Saves that fail end the history; all saves of a history have the same write options."
  },
  {
   "property": "C89",
   "status": "partial",
   "theorems": [
    "Lofty.Id3v2.equal_iff",
    "Lofty.Id3v2.equality",
    "Lofty.Id3v2.equal_history",
    "Lofty.Id3v2.equal_ids",
    "Lofty.Id3v2.equal_identical_partial",
    "Lofty.Id3v2.titles_ignored",
    "Lofty.Id3v2.contents_ignored",
    "Lofty.Id3v2.order_matters",
    "Lofty.Ilst.equal_contents",
    "Lofty.Ilst.equal_iff_partial",
    "Lofty.Ilst.edited_equal_iff_partial",
    "Lofty.Ilst.tidy_read",
    "Lofty.Ilst.tidy_history",
    "Lofty.Convert.remainder_unequal"
   ],
   "note": "ID3v2: the exact meaning of == is proved, that it is an equivalence and a congruence for all edits, and that equal tags are identical if they consist of frames that are compared in full. False for texts, links, comments, lyrics, ratings, volumes, identifiers, chapters and tables of contents, whose contents are ignored (titles_ignored, contents_ignored). MP4: exact for all tags that were read and edited; false for what split_tag leaves (remainder_unequal). The other tags derive equality from their fields, which are their contents."
  },
  {
   "property": "C90",
   "status": "partial",
   "theorems": [
    "Lofty.Picture.fromApe_iff",
    "Lofty.Picture.fromApe_no_panic",
    "Lofty.Picture.latin_utf8",
    "Lofty.Picture.ape_round",
    "Lofty.Picture.ape_garbled",
    "Lofty.Picture.ape_nul",
    "Lofty.Picture.fromReader_iff"
   ],
   "note": "Proved as an exact condition: a picture comes back exactly if its description is ASCII. False for other descriptions, which are written as UTF-8 and read as Latin-1 (ape_garbled), and for descriptions with NUL (ape_nul)."
  },
  {
   "property": "C91",
   "status": "proved",
   "theorems": [
    "Lofty.values_unique",
    "Lofty.Id3v2.getTexts_iff",
    "Lofty.Id3v2.getTexts_insert",
    "Lofty.Ape.textValues_iff",
    "Lofty.Ape.push_values",
    "Lofty.Ape.pushed_values"
   ],
   "note": "For the frame put in, the frames under its id are texts, as they are for every text id that was read or set."
  },
  {
   "property": "C92",
   "status": "partial",
   "theorems": [
    "Lofty.Save.empty_len",
    "Lofty.Save.aiff_no_items",
    "Lofty.Save.read_proper",
    "Lofty.Save.converted_proper",
    "Lofty.Save.accessor_proper",
    "Lofty.Save.clear_empty",
    "Lofty.Save.generic_clear",
    "Lofty.Ape.contains_iff",
    "Lofty.Id3v2.contains_iff",
    "Lofty.Ilst.contains_iff",
    "Lofty.Item.contains_iff",
    "Lofty.Vorbis.contains_iff",
    "Lofty.Vorbis.contains_unfound",
    "Lofty.Iff.contains_partial",
    "Lofty.Iff.contains_unfound",
    "Lofty.Iff.aiff_contains",
    "Lofty.Id3v1.contains_partial",
    "Lofty.Id3v1.contains_unconverted",
    "Lofty.Ape.len_insert",
    "Lofty.Ape.len_remove",
    "Lofty.Id3v2.setUrl_spec",
    "Lofty.Id3v2.writable_iff",
    "Lofty.Id3v2.parsed_writable",
    "Lofty.Id3v2.links_written"
   ],
   "note": "False, with witnesses, of AIFF tags with an empty list (aiff_no_items; no tag that is read, converted or set by accessors has one), of Vorbis comments without a key (Vorbis.contains_unfound), of RIFF keys in another spelling (Iff.contains_unfound) and of ID3v1 genres without a name (Id3v1.contains_unconverted)."
  },
  {
   "property": "C93",
   "status": "partial",
   "theorems": [
    "Lofty.Masks.opus_table",
    "Lofty.Masks.opus_total",
    "Lofty.Masks.aac_table",
    "Lofty.Masks.aac_four",
    "Lofty.Masks.aac_count",
    "Lofty.Masks.opus_mask",
    "Lofty.Masks.mpeg_mask",
    "Lofty.Masks.aac_mask_partial",
    "Lofty.Masks.wavpack_mask_partial",
    "Lofty.Masks.wav_mask_field",
    "Lofty.Masks.no_mask",
    "Lofty.Masks.aac_seven",
    "Lofty.Masks.wav_unchecked",
    "Lofty.Masks.mpeg_unread"
   ],
   "note": "Proved for all Opus and MPEG files, and for all AAC files but those of configuration 7, which show seven channels and eight speakers (aac_seven). The speakers of configuration 4 are not those of the standard (aac_four). WavPack: files of one or two channels. WAV: the mask of the file is shown unchecked (wav_mask_field, wav_unchecked). MPEG files whose properties are not read show two speakers and no channel (mpeg_unread). Missing: WavPack files of more channels (see C62)."
  },
  {
   "property": "C94",
   "status": "partial",
   "theorems": [
    "Lofty.Id3v2.ids_v22_partial",
    "Lofty.Id3v2.ids_only",
    "Lofty.Id3v2.ids_distinct",
    "Lofty.Id3v2.artist_wrong",
    "Lofty.Id3v2.ended_kept",
    "Lofty.Id3v2.body_v22",
    "Lofty.Id3v2.frame_v22_partial",
    "Lofty.Id3v2.tag_v22_partial",
    "Lofty.Id3v2.tag_v22_unsync_partial",
    "Lofty.Id3v2.tag_v22_distinct_partial",
    "Lofty.Id3v2.old_not_written",
    "Lofty.Id3v2.date_cut",
    "Lofty.Id3v2.artist_lost",
    "Lofty.Opened.lyricist_moved",
    "Lofty.Opened.date_cut_file"
   ],
   "note": "Proved for all frames but the original artist and the lyricist, which the table renames to the original album and the original lyricist (artist_wrong, artist_lost, lyricist_moved), and event timing codes, which are not written by the library so that no body is given for them. The day and the time of a recording are not joined with the year, as they are for ID3v2.3, and are not written again (date_cut, date_cut_file, old_not_written). Bodies are those ContentOk allows (C28)."
  },
  {
   "property": "C95",
   "status": "partial",
   "theorems": [
    "Lofty.Id3v2.date_v23_partial",
    "Lofty.Id3v2.no_date_v23",
    "Lofty.Id3v2.full_date_lost",
    "Lofty.Id3v2.wrong_day_taken",
    "Lofty.Opened.full_date_lost_file"
   ],
   "note": "Proved for every tag whose parts of a date are those of ID3v2.3, and for tags without a year. The last clause is false of the code: a frame with a whole date, under the id of ID3v2.4 or of ID3v2.3, is removed and nothing put in its place (full_date_lost, full_date_lost_file). Numbers that are no day are taken over and make the tag unsavable (wrong_day_taken). The order of the frames may change. Tags with several frames of the same id are not covered."
  },
  {
   "property": "C96",
   "status": "partial",
   "theorems": [
    "Lofty.FileTags.tags_merged_partial",
    "Lofty.FileTags.tags_merged_properties_partial",
    "Lofty.FileTags.last_text_read",
    "Lofty.FileTags.save_first_only",
    "Lofty.FileTags.save_then_read_partial",
    "Lofty.FileTags.saved_text_hidden",
    "Lofty.FileTags.removal_leaves",
    "Lofty.FileTags.footer_hides",
    "Lofty.Opened.new_title_hidden",
    "Lofty.Opened.second_tag_stays"
   ],
   "note": "Reading is proved for ID3v2.4 tags that the library wrote, those behind the first without footer; a footer behind a further tag hides the tags after it (footer_hides). The last sentence is false of the code: a save replaces only the first tag (save_first_only), so what is read is the new tag with the old frames inserted (save_then_read_partial), an old text wins over the one saved (saved_text_hidden, new_title_hidden), and removal leaves a tag (removal_leaves, second_tag_stays). With one tag the sentence holds (the same theorem with no further tags)."
  },
  {
   "property": "C97",
   "status": "partial",
   "theorems": [
    "Lofty.IffFiles.wav_merged_partial",
    "Lofty.IffFiles.aiff_merged_partial",
    "Lofty.IffFiles.first_list_read",
    "Lofty.IffFiles.wav_save_then_read_partial",
    "Lofty.IffFiles.old_items_stay",
    "Lofty.IffFiles.info_unique",
    "Lofty.IffFiles.wav_short_ignored",
    "Lofty.IffFiles.aiff_short_ignored",
    "Lofty.IffFiles.wav_bad_chunk",
    "Lofty.IffFiles.wav_short_refused",
    "Lofty.IffFiles.aiff_bad_chunk",
    "Lofty.IffFiles.aiff_short_refused",
    "Lofty.Opened.second_list_stays",
    "Lofty.Opened.second_chunk_stays"
   ],
   "note": "Reading is proved for any number of lists and of ID3v2.4 chunks that the library wrote; chunks too short for a header are ignored unless the mode is strict (wav_short_ignored, aiff_short_ignored); in strict mode, and in every mode if a longer chunk cannot be parsed, the file is refused as a whole (wav_short_refused, wav_bad_chunk, aiff_short_refused, aiff_bad_chunk). The last sentences are false of the code: a save replaces the first INFO list only, so the items of the others are read behind the new ones whatever is saved (wav_save_then_read_partial, old_items_stay, second_list_stays), and the same happens with ID3v2 chunks in WAV and AIFF files (second_chunk_stays, by example). With one list the sentence holds (the same theorem with no further lists). Of a key in several lists the first value is read (first_list_read), of ID3v2 tags the last; a comment in the tests says that the latest tag has precedence. Reading several ID3v2 chunks of an AIFF file is aiff_merged_partial."
  },
  {
   "property": "C98",
   "status": "partial",
   "theorems": [
    "Lofty.Opened.rating_inserted",
    "Lofty.Opened.ogg_ratings",
    "Lofty.Opened.flac_ratings",
    "Lofty.Opened.around_ratings",
    "Lofty.Opened.aiff_ratings",
    "Lofty.Opened.wav_ratings",
    "Lofty.Opened.mp4_ratings",
    "Lofty.Opened.mp4_create_ratings",
    "Lofty.Opened.id3v2_ratings_read",
    "Lofty.Opened.comments_ratings",
    "Lofty.Opened.rating_refused",
    "Lofty.Opened.riff_ratings_lost",
    "Lofty.Opened.wav_rating_shown"
   ],
   "note": "Proved for OGG, FLAC and MP4 files (all ratings in order) and for ID3v2 tags in MPEG, AAC, Monkey's Audio, Musepack, WAV and AIFF files (in some order; of several ratings with one address the first). The statement is false of RIFF INFO lists: whatever the ratings were, none is read after a save, because the list gets a bare number that is not read as a rating (riff_ratings_lost, wav_ratings, wav_rating_shown). Converted to Vorbis comments instead of saved directly, the number of plays becomes 0 and ratings without a writable address are lost (comments_ratings). Addresses with a bar are excluded in rating_inserted (Rating.bar_lost)."
  },
  {
   "property": "C99",
   "status": "partial",
   "theorems": [
    "Lofty.Opened.ogg_pictures",
    "Lofty.Opened.flac_pictures",
    "Lofty.Opened.around_pictures",
    "Lofty.Opened.wav_pictures",
    "Lofty.Opened.aiff_pictures",
    "Lofty.Opened.mp4_pictures_partial",
    "Lofty.Opened.mp4_create_pictures_partial",
    "Lofty.Opened.no_pictures_shown",
    "Lofty.Opened.pictures_not_saved",
    "Lofty.Opened.ape_items_no_cover",
    "Lofty.Opened.ape_cover_lost"
   ],
   "note": "Proved for OGG and FLAC files and for ID3v2 tags in MPEG, AAC, WAV and AIFF files (all pictures as they were, in order); in MP4 files the types of the pictures are lost (mp4_pictures_partial; mp4_create_pictures_partial for files without a tag). The statement is false of APE tags: a save succeeds and leaves the pictures out (pictures_not_saved, ape_items_no_cover), no APE tag of any file is shown with its pictures (no_pictures_shown), and so a file with a cover in its APE tag that is opened and saved unchanged loses the cover (ape_cover_lost). ID3v1 tags, INFO lists and AIFF texts have no pictures by their format; pictures put into such tags are left out silently as well. The conditions of C69 on the tag (texts and pictures that the format can hold) apply."
  },
  {
   "property": "C100",
   "status": "partial",
   "theorems": [
    "Lofty.Limits.comments_or_refused",
    "Lofty.Limits.ogg_or_refused",
    "Lofty.Limits.chunks_or_refused",
    "Lofty.Limits.comments_small",
    "Lofty.Limits.flac_never_refused",
    "Lofty.Limits.written_limited",
    "Lofty.Limits.ogg_limited",
    "Lofty.Limits.wav_limited",
    "Lofty.Limits.aiff_limited",
    "Lofty.Limits.saved_then_refused",
    "Lofty.Limits.whole_tag_counted",
    "Lofty.Limits.findAt_limited",
    "Lofty.Limits.front_refused",
    "Lofty.Limits.front_same",
    "Lofty.Limits.junk_refused",
    "Lofty.Limits.oversized_iff",
    "Lofty.Limits.flac_front",
    "Lofty.LimitsApe.tag_or_refused",
    "Lofty.LimitsApe.save_or_refused",
    "Lofty.LimitsApe.tag_limited",
    "Lofty.LimitsApe.stuck",
    "Lofty.LimitsApe.not_stuck",
    "Lofty.LimitsApe.saved_stuck",
    "Lofty.LimitsPadding.padding_within",
    "Lofty.LimitsPadding.padding_refused"
   ],
   "note": "Proved: with a limit Vorbis comments, OGG, WAV and AIFF files are read as without or refused because of the limit (comments_or_refused, ogg_or_refused, chunks_or_refused); comments shorter than the limit as a whole, and with the default limit all comments of FLAC files, are never refused (comments_small, flac_never_refused). The statement is false otherwise, and exactly when is proved: a comment longer than the limit (a picture counts in base64) is saved to an OGG file, which then cannot be read (ogg_limited, saved_then_refused); in WAV and AIFF files the limit counts the whole ID3v2 tag, not single items (wav_limited, aiff_limited, whole_tag_counted), and so it does for ID3v2 tags in front of FLAC, Monkey's Audio and Musepack files and behind junk in MPEG files (front_refused, front_same, junk_refused, flac_front; oversized_iff says when in the bytes of the header). The preferred padding of an ID3v2 tag is held to the limit as well: a larger one refuses every save of a tag with frames (padding_within, padding_refused). APE tags are worse: an item over the limit is saved, the tag is refused when read, and as saving reads the tag in the file first, it can neither be replaced nor removed (tag_limited, stuck, saved_stuck; tag_or_refused, save_or_refused and not_stuck for the other cases). Left out: the limit for fmt and COMM chunks and the texts of INFO lists and AIFF chunks and for encrypted frames; MP4 is in C58."
  },
  {
   "property": "C101",
   "status": "partial",
   "theorems": [
    "Lofty.FileTags.tag_frames_lost",
    "Lofty.FileTags.mpeg_frames_lost",
    "Lofty.FileTags.mac_frames_lost",
    "Lofty.FileTags.mpc_frames_lost",
    "Lofty.FileTags.aac_frames_lost",
    "Lofty.FileTags.mpeg_saved_again",
    "Lofty.FileTags.unchanged_save_loses",
    "Lofty.IffFiles.wav_frames_lost",
    "Lofty.IffFiles.aiff_frames_lost"
   ],
   "note": "The first sentence of the statement is false, for every such tag: the extended header is written but not announced in the header, so a reader takes it for padding and finds no frame, no checksum and no restrictions (mpeg_frames_lost, mac_frames_lost, mpc_frames_lost, aac_frames_lost after any saves before; wav_frames_lost and aiff_frames_lost for files that had no ID3v2 chunk). A tag of another program with a checksum, opened and saved unchanged, loses its title (unchanged_save_loses). The rest is proved: the other tags are untouched, and the next save without checksum and restrictions finds the tag and replaces it as a whole (mpeg_saved_again). The theorems about files are for ID3v2.4 without unsynchronisation; the one about the bytes of the tag is for both versions and all flags (tag_frames_lost)."
  },
  {
   "property": "C102",
   "status": "partial",
   "theorems": [
    "Lofty.Id3v2.parseHeader_createTag_partial",
    "Lofty.Id3v2.v23_experimental_refused",
    "Lofty.Id3v2.v23_experimental_lost",
    "Lofty.Id3v2.createItems_first",
    "Lofty.FileTags.mpeg_experimental_unreadable",
    "Lofty.FileTags.aac_experimental_unreadable",
    "Lofty.FileTags.unchanged_save_unreadable",
    "Lofty.FileTags.experimental_with_checksum",
    "Lofty.IffFiles.wav_experimental_unreadable",
    "Lofty.IffFiles.aiff_experimental_unreadable"
   ],
   "note": "Proved without the experimental flag (parseHeader_createTag_partial) and false with it, for every tag: as_id3v23_byte puts the flag into bit 0x40, which announces an extended header, while the parser looks for it in bit 0x20. The identifier of the first frame is taken for the size of an extended header and the header is refused. MPEG and AAC files are then refused as a whole, with any options (mpeg_experimental_unreadable, aac_experimental_unreadable), and so are WAV and AIFF files that had no ID3v2 chunk if tags are to be read (wav_experimental_unreadable, aiff_experimental_unreadable); where the tag is searched for, it is not found and the reader is left inside of it (v23_experimental_lost). A file of another program whose ID3v2.3 tag has the flag becomes unreadable when its tag is saved unchanged as ID3v2.3 (unchanged_save_unreadable). With a checksum as well the tag can be read, as the misplaced flag announces the extended header (experimental_with_checksum)."
  }
 ]
}
