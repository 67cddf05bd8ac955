{
 "claims": [
  {
   "property": "C01",
   "status": "proved",
   "theorems": [
    "Astro.C01_created_card_layout"
   ],
   "note": "Exact layout against Spec.Layout; floats only through an uninterpreted text function."
  },
  {
   "property": "C02",
   "status": "proved",
   "theorems": [
    "Astro.C02_create_accepts_iff",
    "Astro.C02_create_failure_unchanged",
    "Astro.C02_create_failure_kind",
    "Astro.C02_integer_limits",
    "Astro.C02_string_limits"
   ],
   "note": "Float values through an uninterpreted text function."
  },
  {
   "property": "C03",
   "status": "proved",
   "theorems": [
    "Astro.C03_keyword_of_created",
    "Astro.C03_keyword_round_trip"
   ],
   "note": ""
  },
  {
   "property": "C04",
   "status": "proved",
   "theorems": [
    "Astro.C04_integer_round_trip"
   ],
   "note": ""
  },
  {
   "property": "C05",
   "status": "proved",
   "theorems": [
    "Astro.C05_bool_round_trip"
   ],
   "note": ""
  },
  {
   "property": "C06",
   "status": "proved",
   "theorems": [
    "Astro.C06_string_round_trip_iff"
   ],
   "note": ""
  },
  {
   "property": "C07",
   "status": "proved",
   "theorems": [
    "Astro.C07_complex_int_never",
    "Astro.C07_complex_size_iff"
   ],
   "note": "complex<float>/complex<double> are not covered: float text is uninterpreted."
  },
  {
   "property": "C08",
   "status": "proved",
   "theorems": [
    "Astro.C08_reads_preserve_card",
    "Astro.C08_read_repeatable",
    "Astro.C08_failed_read_harmless"
   ],
   "note": ""
  },
  {
   "property": "C09",
   "status": "proved",
   "theorems": [
    "Astro.C09_stale_after_create",
    "Astro.C09_create_then_read_fails",
    "Astro.C09_fresh_read_sees_new"
   ],
   "note": ""
  },
  {
   "property": "C10",
   "status": "proved",
   "theorems": [
    "Astro.C10_set_value_effect",
    "Astro.C10_set_value_not_reparsable"
   ],
   "note": ""
  },
  {
   "property": "C11",
   "status": "proved",
   "theorems": [
    "Astro.C11_raw_card_decision"
   ],
   "note": ""
  },
  {
   "property": "C12",
   "status": "proved",
   "theorems": [
    "Astro.C12_commentary"
   ],
   "note": ""
  },
  {
   "property": "C13",
   "status": "proved",
   "theorems": [
    "Astro.C13_created_reparses",
    "Astro.C13_commentary_reparses",
    "Astro.C13_end_commentary",
    "Astro.C13_end_commentary_accept_iff"
   ],
   "note": ""
  },
  {
   "property": "C14",
   "status": "proved",
   "theorems": [
    "Astro.C14_value_with_comment"
   ],
   "note": ""
  },
  {
   "property": "C15",
   "status": "proved",
   "theorems": [
    "Astro.C15_serialize_big_endian",
    "Astro.C15_decode",
    "Astro.C15_decode_encode",
    "Astro.C15_encode_decode",
    "Astro.C15_byte"
   ],
   "note": "Floats as IEEE bit patterns; little-endian host."
  },
  {
   "property": "C16",
   "status": "proved",
   "theorems": [
    "Astro.C16_vector_decode",
    "Astro.C16_vector_round_trip",
    "Astro.C16_vector_encode_decode",
    "Astro.C16_complex_round_trip",
    "Astro.C16_complex_vector_round_trip",
    "Astro.C16_complex_vector_decode",
    "Astro.C16_bytes"
   ],
   "note": ""
  },
  {
   "property": "C17",
   "status": "proved",
   "theorems": [
    "Astro.C17_pairs_overlap",
    "Astro.C17_pairs_round_trip_iff",
    "Astro.C17_single_pair"
   ],
   "note": ""
  },
  {
   "property": "C18",
   "status": "proved",
   "theorems": [
    "Astro.C18_bool_decode",
    "Astro.C18_bool_round_trip",
    "Astro.C18_bools_decode"
   ],
   "note": ""
  },
  {
   "property": "C19",
   "status": "proved",
   "theorems": [
    "Astro.C19_element_count",
    "Astro.C19_element_count_reject"
   ],
   "note": ""
  },
  {
   "property": "C20",
   "status": "proved",
   "theorems": [
    "Astro.C20_write_read",
    "Astro.C20_read_write",
    "Astro.C20_pixels",
    "Astro.C20_empty"
   ],
   "note": "Float pixels as bit patterns."
  },
  {
   "property": "C21",
   "status": "proved",
   "theorems": [
    "Astro.C21_b8_zero",
    "Astro.C21_b8_lossy"
   ],
   "note": ""
  },
  {
   "property": "C22",
   "status": "proved",
   "theorems": [
    "Astro.C22_max_iff",
    "Astro.C22_min_iff",
    "Astro.C22_mean",
    "Astro.C22_median_iff",
    "Astro.C22_median_halves",
    "Astro.C22_variance",
    "Astro.C22_order_independent",
    "Astro.C22_defined_iff",
    "Astro.C22_std_dev"
   ],
   "note": "Pixels as rationals; floating-point rounding of the double accumulation is not modelled, std::nth_element by its contract."
  },
  {
   "property": "C23",
   "status": "proved",
   "theorems": [
    "Astro.C23_pixel_after_read",
    "Astro.C23_pixel_wrong",
    "Astro.C23_pixel_with_width",
    "Astro.C23_sized"
   ],
   "note": ""
  },
  {
   "property": "C24",
   "status": "proved",
   "theorems": [
    "Astro.C24_unit_end",
    "Astro.C24_extra_block"
   ],
   "note": ""
  },
  {
   "property": "C25",
   "status": "proved",
   "theorems": [
    "Astro.C25_write_header",
    "Astro.C25_card_positions"
   ],
   "note": ""
  },
  {
   "property": "C26",
   "status": "proved",
   "theorems": [
    "Astro.C26_read",
    "Astro.C26_read_exact",
    "Astro.C26_failed_forever",
    "Astro.C26_end_never_reported",
    "Astro.C26_at_end",
    "Astro.C26_get",
    "Astro.C26_get_end",
    "Astro.C26_write",
    "Astro.C26_write_at"
   ],
   "note": ""
  },
  {
   "property": "C27",
   "status": "proved",
   "theorems": [
    "Astro.C27_round_trip",
    "Astro.C27_reread"
   ],
   "note": ""
  },
  {
   "property": "C28",
   "status": "proved",
   "theorems": [
    "Astro.C28_index",
    "Astro.C28_absent",
    "Astro.C28_contains",
    "Astro.C28_value_is_last"
   ],
   "note": ""
  },
  {
   "property": "C29",
   "status": "proved",
   "theorems": [
    "Astro.C29_values",
    "Astro.C29_data_size",
    "Astro.C29_bad_bitpix"
   ],
   "note": ""
  },
  {
   "property": "C30",
   "status": "proved",
   "theorems": [
    "Astro.C30_never_terminates",
    "Astro.C30_no_end_hangs",
    "Astro.C30_stops_at_first_end",
    "Astro.C30_terminates_iff",
    "Astro.C30_invalid_card"
   ],
   "note": ""
  },
  {
   "property": "C31",
   "status": "proved",
   "theorems": [
    "Astro.C31_open_iff",
    "Astro.C31_open_total",
    "Astro.C31_write_open",
    "Astro.C31_copy"
   ],
   "note": "Files below 2^63-5760 bytes. 'Carry fitting data' is the predicate DataFits (8 bit images and gapped ASCII columns are excluded: C21, C37 show they do not round trip)."
  },
  {
   "property": "C32",
   "status": "proved",
   "theorems": [
    "Astro.C32_last_hangs",
    "Astro.C32_followed"
   ],
   "note": "HDUs before the data-less one carry data; the data-less HDU is followed by nothing (hang) or by an HDU whose header was read from a file."
  },
  {
   "property": "C33",
   "status": "proved",
   "theorems": [
    "Astro.C33_index",
    "Astro.C33_name",
    "Astro.C33_total",
    "Astro.C33_block"
   ],
   "note": "total_hdus counts different names, not HDUs."
  },
  {
   "property": "C34",
   "status": "proved",
   "theorems": [
    "Astro.C34_name",
    "Astro.C34_kind",
    "Astro.C34_other_dropped"
   ],
   "note": "C34_name and C34_other_dropped assume the axis keywords are present (otherwise reading the header changes the caches)."
  },
  {
   "property": "C35",
   "status": "proved",
   "theorems": [
    "Astro.C35_written",
    "Astro.C35_dropped",
    "Astro.C35_fails_iff"
   ],
   "note": ""
  },
  {
   "property": "C36",
   "status": "proved",
   "theorems": [
    "Astro.C36_cell",
    "Astro.C36_outside",
    "Astro.C36_table",
    "Astro.C36_total",
    "Astro.C36_make",
    "Astro.C36_file"
   ],
   "note": "Read from header cards and buffer to the cell matrix."
  },
  {
   "property": "C37",
   "status": "proved",
   "theorems": [
    "Astro.C37_rows",
    "Astro.C37_round_trip",
    "Astro.C37_same_cells",
    "Astro.C37_too_long",
    "Astro.C37_gaps_lost"
   ],
   "note": ""
  },
  {
   "property": "C38",
   "status": "proved",
   "theorems": [
    "Astro.C38_table",
    "Astro.C38_exact"
   ],
   "note": ""
  },
  {
   "property": "C39",
   "status": "proved",
   "theorems": [
    "Astro.C39_write_parsed"
   ],
   "note": ""
  },
  {
   "property": "C40",
   "status": "proved",
   "theorems": [
    "Astro.C40_ascii_width",
    "Astro.C40_binary_width",
    "Astro.C40_unknown_letter",
    "Astro.C40_letter"
   ],
   "note": ""
  },
  {
   "property": "C41",
   "status": "proved",
   "theorems": [
    "Astro.C41_make",
    "Astro.C41_tiling",
    "Astro.C41_file"
   ],
   "note": ""
  },
  {
   "property": "C42",
   "status": "proved",
   "theorems": [
    "Astro.C42_plain_arrays",
    "Astro.C42_last_write",
    "Astro.C42_reads_pure",
    "Astro.C42_layout_of_made"
   ],
   "note": "Refinement to Spec.Arrays for operation sequences of any length. Copies of table objects: C109, C124."
  },
  {
   "property": "C43",
   "status": "proved",
   "theorems": [
    "Astro.C43_first",
    "Astro.C43_not_found"
   ],
   "note": ""
  },
  {
   "property": "C44",
   "status": "proved",
   "theorems": [
    "Astro.C44_stale"
   ],
   "note": ""
  },
  {
   "property": "C45",
   "status": "proved",
   "theorems": [
    "Astro.C45_first_type"
   ],
   "note": ""
  },
  {
   "property": "C46",
   "status": "proved",
   "theorems": [
    "Astro.C46_counts",
    "Astro.C46_tomorrow"
   ],
   "note": "for every rounding of double"
  },
  {
   "property": "C47",
   "status": "proved",
   "theorems": [
    "Astro.C47_julian",
    "Astro.C47_gap",
    "Astro.C47_order",
    "Astro.C47_switch"
   ],
   "note": "for every rounding of double"
  },
  {
   "property": "C48",
   "status": "proved",
   "theorems": [
    "Astro.C48_date_only"
   ],
   "note": "for every rounding of double"
  },
  {
   "property": "C49",
   "status": "proved",
   "theorems": [
    "Astro.C49_gst",
    "Astro.C49_gst_julian"
   ],
   "note": "exact arithmetic; rounding of double: C88"
  },
  {
   "property": "C50",
   "status": "proved",
   "theorems": [
    "Astro.C50_lst",
    "Astro.C50_periodic"
   ],
   "note": "exact arithmetic; rounding of double: C89"
  },
  {
   "property": "C51",
   "status": "proved",
   "theorems": [
    "Astro.C51_split",
    "Astro.C51_unique"
   ],
   "note": "exact arithmetic; rounding of double not covered"
  },
  {
   "property": "C52",
   "status": "proved",
   "theorems": [
    "Astro.C52_parts",
    "Astro.C52_double"
   ],
   "note": "C52_parts without rounding, C52_double with every operation rounded to the nearest double"
  },
  {
   "property": "C53",
   "status": "proved",
   "theorems": [
    "Astro.C53_isometry",
    "Astro.C53_orientation"
   ],
   "note": "double is modelled by the reals"
  },
  {
   "property": "C54",
   "status": "proved",
   "theorems": [
    "Astro.C54_horizon",
    "Astro.C54_ra"
   ],
   "note": "double is modelled by the reals"
  },
  {
   "property": "C55",
   "status": "proved",
   "theorems": [
    "Astro.C55_ecliptic"
   ],
   "note": "double is modelled by the reals"
  },
  {
   "property": "C56",
   "status": "proved",
   "theorems": [
    "Astro.C56_orthogonal",
    "Astro.C56_not_inverse",
    "Astro.C56_transpose",
    "Astro.C56_mirror"
   ],
   "note": "The code falls short of what its name promises; the theorems state how. double is modelled by the reals"
  },
  {
   "property": "C57",
   "status": "proved",
   "theorems": [
    "Astro.C57_unit",
    "Astro.C57_extract",
    "Astro.C57_column",
    "Astro.C57_none",
    "Astro.C57_ranges"
   ],
   "note": "asin outside [-1,1] is none (NaN). double is modelled by the reals, so a vector that rounding makes longer than 1 does not occur"
  },
  {
   "property": "C58",
   "status": "proved",
   "theorems": [
    "Astro.C58_round_trip",
    "Astro.C58_pole",
    "Astro.C58_right_ascension"
   ],
   "note": "double is modelled by the reals"
  },
  {
   "property": "C59",
   "status": "proved",
   "theorems": [
    "Astro.C59_same_vector",
    "Astro.C59_cartesian",
    "Astro.C59_angular",
    "Astro.C59_ranges"
   ],
   "note": "double is modelled by the reals; boost::geometry::transform and boost::units conversions are trusted"
  },
  {
   "property": "C60",
   "status": "proved",
   "theorems": [
    "Astro.C60_dot",
    "Astro.C60_cross",
    "Astro.C60_laws"
   ],
   "note": "double is modelled by the reals; boost::geometry::transform and boost::units conversions are trusted"
  },
  {
   "property": "C61",
   "status": "proved",
   "theorems": [
    "Astro.C61_magnitude",
    "Astro.C61_cartesian",
    "Astro.C61_direction",
    "Astro.C61_mixed_units",
    "Astro.C61_angular"
   ],
   "note": "double is modelled by the reals; boost::geometry::transform and boost::units conversions are trusted"
  },
  {
   "property": "C62",
   "status": "proved",
   "theorems": [
    "Astro.C62_sum",
    "Astro.C62_mean",
    "Astro.C62_laws"
   ],
   "note": "double is modelled by the reals; boost::geometry::transform and boost::units conversions are trusted"
  },
  {
   "property": "C63",
   "status": "proved",
   "theorems": [
    "Astro.C63_equivalence",
    "Astro.C63_same_units",
    "Astro.C63_other_units",
    "Astro.C63_units_ignored"
   ],
   "note": "double is modelled by the reals; boost::geometry::transform and boost::units conversions are trusted"
  },
  {
   "property": "C64",
   "status": "proved",
   "theorems": [
    "Astro.C64_add",
    "Astro.C64_mul",
    "Astro.C64_distributes",
    "Astro.C64_radial",
    "Astro.C64_lost",
    "Astro.C64_unit"
   ],
   "note": "double is modelled by the reals; boost::geometry::transform and boost::units conversions are trusted"
  },
  {
   "property": "C65",
   "status": "proved",
   "theorems": [
    "Astro.C65_round_trip",
    "Astro.C65_lossless",
    "Astro.C65_components"
   ],
   "note": "double is modelled by the reals; boost::geometry::transform and boost::units conversions are trusted"
  },
  {
   "property": "C66",
   "status": "proved",
   "theorems": [
    "Astro.C66_angle",
    "Astro.C66_metric",
    "Astro.C66_distance",
    "Astro.C66_right_iff",
    "Astro.C66_meridian"
   ],
   "note": "double is modelled by the reals; boost::geometry::transform and boost::units conversions are trusted"
  },
  {
   "property": "C67",
   "status": "proved",
   "theorems": [
    "Astro.C67_bearing",
    "Astro.C67_range",
    "Astro.C67_offset",
    "Astro.C67_mirror",
    "Astro.C67_meridian"
   ],
   "note": "double is modelled by the reals; boost::geometry::transform and boost::units conversions are trusted"
  },
  {
   "property": "C68",
   "status": "proved",
   "theorems": [
    "Astro.C68_last_write",
    "Astro.C68_construct",
    "Astro.C68_tuples",
    "Astro.C68_convert",
    "Astro.C68_copy"
   ],
   "note": "double is modelled by the reals; boost::geometry::transform and boost::units conversions are trusted"
  },
  {
   "property": "C69",
   "status": "proved",
   "theorems": [
    "Astro.C69_polynomial",
    "Astro.C69_range",
    "Astro.C69_decreasing"
   ],
   "note": "double is modelled by the reals, the constant PI by pi; the Julian day number of the date comes from boost::gregorian and is a parameter"
  },
  {
   "property": "C70",
   "status": "proved",
   "theorems": [
    "Astro.C70_last_write",
    "Astro.C70_construct"
   ],
   "note": "double is modelled by the reals; boost::geometry::transform and boost::units conversions are trusted"
  },
  {
   "property": "C71",
   "status": "proved",
   "theorems": [
    "Astro.C71_cached_types"
   ],
   "note": ""
  },
  {
   "property": "C72",
   "status": "proved",
   "theorems": [
    "Astro.C72_keyword_as_column_name"
   ],
   "note": ""
  },
  {
   "property": "C73",
   "status": "proved",
   "theorems": [
    "Astro.C73_assign_needs_old_value"
   ],
   "note": ""
  },
  {
   "property": "C74",
   "status": "proved",
   "theorems": [
    "Astro.C74_numeric_cell"
   ],
   "note": ""
  },
  {
   "property": "C75",
   "status": "proved",
   "theorems": [
    "Astro.C75_cut_hangs",
    "Astro.C75_cut_headers",
    "Astro.C31_open_iff"
   ],
   "note": ""
  },
  {
   "property": "C76",
   "status": "proved",
   "theorems": [
    "Astro.C76_reused"
   ],
   "note": ""
  },
  {
   "property": "C77",
   "status": "proved",
   "theorems": [
    "Astro.C77_headers_iff",
    "Astro.C77_same_layout"
   ],
   "note": ""
  },
  {
   "property": "C78",
   "status": "proved",
   "theorems": [
    "Astro.C78_wraps"
   ],
   "note": ""
  },
  {
   "property": "C79",
   "status": "proved",
   "theorems": [
    "Astro.C79_headers_write"
   ],
   "note": ""
  },
  {
   "property": "C80",
   "status": "proved",
   "theorems": [
    "Astro.C80_fraction"
   ],
   "note": "for every rounding of double"
  },
  {
   "property": "C81",
   "status": "proved",
   "theorems": [
    "Astro.C81_proper_motion",
    "Astro.C81_agrees"
   ],
   "note": "double is modelled by the reals; boost::geometry::transform and boost::units conversions are trusted"
  },
  {
   "property": "C82",
   "status": "proved",
   "theorems": [
    "Astro.C82_right_ascension",
    "Astro.C82_horizon",
    "Astro.C82_altitude",
    "Astro.C82_ecliptic",
    "Astro.C82_galactic"
   ],
   "note": "double is modelled by the reals"
  },
  {
   "property": "C83",
   "status": "proved",
   "theorems": [
    "Astro.C83_getters",
    "Astro.C83_change_units",
    "Astro.C83_to_representation",
    "Astro.C83_stretch"
   ],
   "note": "double is modelled by the reals; boost::geometry::transform and boost::units conversions are trusted"
  },
  {
   "property": "C84",
   "status": "proved",
   "theorems": [
    "Astro.C84_getters",
    "Astro.C84_mul",
    "Astro.C84_mul_negative",
    "Astro.C84_add",
    "Astro.C84_add_coslat",
    "Astro.C84_add_zero"
   ],
   "note": "double is modelled by the reals; boost::geometry::transform and boost::units conversions are trusted"
  },
  {
   "property": "C85",
   "status": "proved",
   "theorems": [
    "Astro.C85_primary",
    "Astro.C85_get_data",
    "Astro.C85_image_extension",
    "Astro.C85_image_extension_written"
   ],
   "note": "headers in which BITPIX, NAXIS and NAXISn are present"
  },
  {
   "property": "C86",
   "status": "proved",
   "theorems": [
    "Astro.C86_ascii",
    "Astro.C86_binary",
    "Astro.C86_first_error",
    "Astro.C86_ascii_undefined",
    "Astro.C86_binary_undefined"
   ],
   "note": "headers in which BITPIX, NAXIS and NAXISn are present and no column is named like a keyword that is read as a number"
  },
  {
   "property": "C87",
   "status": "proved",
   "theorems": [
    "Astro.C87_encode",
    "Astro.C87_decode",
    "Astro.C87_survives",
    "Astro.C87_binary_reload",
    "Astro.C87_ascii_decode",
    "Astro.C87_ascii_reload"
   ],
   "note": "floats are bit patterns; printing and parsing floating point text is uninterpreted; the arrays-of-pairs case is C17"
  },
  {
   "property": "C88",
   "status": "proved",
   "theorems": [
    "Astro.C88_gst",
    "Astro.C88_gst_julian"
   ],
   "note": "Binary64 rounding to nearest with any tie rule; overflow, FMA contraction and x87 excess precision are not modelled."
  },
  {
   "property": "C89",
   "status": "proved",
   "theorems": [
    "Astro.C89_lst",
    "Astro.C89_24"
   ],
   "note": "Binary64 rounding to nearest with any tie rule; overflow, FMA contraction and x87 excess precision are not modelled. Longitudes are numbers up to 720 in absolute value."
  },
  {
   "property": "C90",
   "status": "proved",
   "theorems": [
    "Astro.C90_split"
   ],
   "note": "Binary64 rounding to nearest with any tie rule; overflow, FMA contraction and x87 excess precision are not modelled."
  },
  {
   "property": "C91",
   "status": "proved",
   "theorems": [
    "Astro.C91_card_count",
    "Astro.C91_card_count_default",
    "Astro.C91_dimensions",
    "Astro.C91_equal",
    "Astro.C91_values_keep",
    "Astro.C91_name_changes"
   ],
   "note": "Files shorter than 2^64 bytes for card_count."
  },
  {
   "property": "C92",
   "status": "proved",
   "theorems": [
    "Astro.C92_create",
    "Astro.C92_same_as_number",
    "Astro.C92_read"
   ],
   "note": "Only texts without / are treated by C92_read; C06 has the general rule for std::string."
  },
  {
   "property": "C93",
   "status": "proved",
   "theorems": [
    "Astro.C93_position",
    "Astro.C93_coslat",
    "Astro.C93_spherical",
    "Astro.C93_weight",
    "Astro.C93_independent",
    "Astro.C93_rebuild",
    "Astro.C93_copy",
    "Astro.C93_sky_point"
   ],
   "note": "double is modelled by the reals. C93_spherical and C93_weight are for motions in the principal ranges with cos(dlat) > 0; C65 says what the conversion does to the others."
  },
  {
   "property": "C94",
   "status": "proved",
   "theorems": [
    "Astro.C94_representation",
    "Astro.C94_two_angle"
   ],
   "note": "How boost::units prints a number with its unit is an arbitrary function without commas."
  },
  {
   "property": "C95",
   "status": "proved",
   "theorems": [
    "Astro.C95_text",
    "Astro.C95_value",
    "Astro.C95_same",
    "Astro.C95_parts",
    "Astro.C95_sixty",
    "Astro.C95_sixty_double"
   ],
   "note": "std::to_string(double) is modelled as %f with correct rounding; negative zero, infinities and NaN are not modelled."
  },
  {
   "property": "C96",
   "status": "proved",
   "theorems": [
    "Astro.C96_double",
    "Astro.C96_float",
    "Astro.C96_cell",
    "Astro.C96_refused",
    "Astro.C96_integer"
   ],
   "note": "The decimal conversions are modelled as libstdc++ on glibc has them: %g with six digits and strtod, both correctly rounded to nearest even, overflow refused, underflow accepted; lexical_cast accepts names of infinity and NaN."
  },
  {
   "property": "C97",
   "status": "proved",
   "theorems": [
    "Astro.C97_double",
    "Astro.C97_float",
    "Astro.C97_fits",
    "Astro.C97_whole"
   ],
   "note": "The decimal conversions are modelled as libstdc++ on glibc has them: %g with six digits and strtod, both correctly rounded to nearest even, overflow refused, underflow accepted; lexical_cast accepts names of infinity and NaN."
  },
  {
   "property": "C98",
   "status": "proved",
   "theorems": [
    "Astro.C98_double",
    "Astro.C98_float",
    "Astro.C98_cell",
    "Astro.C98_error",
    "Astro.C98_survives",
    "Astro.C98_exact",
    "Astro.C98_special",
    "Astro.C98_again"
   ],
   "note": "The decimal conversions are modelled as libstdc++ on glibc has them: %g with six digits and strtod, both correctly rounded to nearest even, overflow refused, underflow accepted; lexical_cast accepts names of infinity and NaN. C98_survives and C98_again are for normal numbers."
  },
  {
   "property": "C99",
   "status": "proved",
   "theorems": [
    "Astro.C99_double",
    "Astro.C99_float"
   ],
   "note": "The decimal conversions are modelled as libstdc++ on glibc has them: %g with six digits and strtod, both correctly rounded to nearest even, overflow refused, underflow accepted; lexical_cast accepts names of infinity and NaN."
  },
  {
   "property": "C100",
   "status": "proved",
   "theorems": [
    "Astro.C100_mean",
    "Astro.C100_order",
    "Astro.C100_constant",
    "Astro.C100_beyond"
   ],
   "note": "IEEE 754 double arithmetic, round to nearest even, square root correctly rounded, no excess precision or fused operations; the sign of zero is not kept."
  },
  {
   "property": "C101",
   "status": "proved",
   "theorems": [
    "Astro.C101_mean",
    "Astro.C101_deviation",
    "Astro.C101_tenths",
    "Astro.C101_order"
   ],
   "note": "IEEE 754 double arithmetic, round to nearest even, square root correctly rounded, no excess precision or fused operations; the sign of zero is not kept."
  },
  {
   "property": "C102",
   "status": "proved",
   "theorems": [
    "Astro.C102_nan",
    "Astro.C102_infinite",
    "Astro.C102_finite",
    "Astro.C102_one",
    "Astro.C102_empty",
    "Astro.C102_overflow"
   ],
   "note": "IEEE 754 double arithmetic, round to nearest even, square root correctly rounded, no excess precision or fused operations; the sign of zero is not kept."
  },
  {
   "property": "C103",
   "status": "proved",
   "theorems": [
    "Astro.C103_max",
    "Astro.C103_min"
   ],
   "note": "IEEE 754 double arithmetic, round to nearest even, square root correctly rounded, no excess precision or fused operations; the sign of zero is not kept."
  },
  {
   "property": "C104",
   "status": "proved",
   "theorems": [
    "Astro.C104_comm",
    "Astro.C104_error",
    "Astro.C104_integers",
    "Astro.C104_cancel"
   ],
   "note": "IEEE 754 double arithmetic, round to nearest even, square root correctly rounded, pow(x, 2) as x*x rounded once, no excess precision or fused operations; one unit for all coordinates; the sign of zero is not kept."
  },
  {
   "property": "C105",
   "status": "proved",
   "theorems": [
    "Astro.C105_swap",
    "Astro.C105_self",
    "Astro.C105_error",
    "Astro.C105_integers",
    "Astro.C105_perpendicular"
   ],
   "note": "IEEE 754 double arithmetic, round to nearest even, square root correctly rounded, pow(x, 2) as x*x rounded once, no excess precision or fused operations; one unit for all coordinates; the sign of zero is not kept."
  },
  {
   "property": "C106",
   "status": "proved",
   "theorems": [
    "Astro.C106_error",
    "Astro.C106_integers",
    "Astro.C106_zero",
    "Astro.C106_infinite"
   ],
   "note": "IEEE 754 double arithmetic, round to nearest even, square root correctly rounded, pow(x, 2) as x*x rounded once, no excess precision or fused operations; one unit for all coordinates; the sign of zero is not kept."
  },
  {
   "property": "C107",
   "status": "proved",
   "theorems": [
    "Astro.C107_error",
    "Astro.C107_large",
    "Astro.C107_small"
   ],
   "note": "IEEE 754 double arithmetic, round to nearest even, square root correctly rounded, pow(x, 2) as x*x rounded once, no excess precision or fused operations; one unit for all coordinates; the sign of zero is not kept. polar is the quotient z/r of boost::geometry::transform."
  },
  {
   "property": "C108",
   "status": "proved",
   "theorems": [
    "Astro.C108_sum",
    "Astro.C108_laws",
    "Astro.C108_grouping",
    "Astro.C108_mean",
    "Astro.C108_same"
   ],
   "note": "IEEE 754 double arithmetic, round to nearest even, square root correctly rounded, pow(x, 2) as x*x rounded once, no excess precision or fused operations; one unit for all coordinates; the sign of zero is not kept."
  },
  {
   "property": "C109",
   "status": "proved",
   "theorems": [
    "Astro.C109_values",
    "Astro.C109_shared",
    "Astro.C109_original",
    "Astro.C109_dangling",
    "Astro.C109_needed"
   ],
   "note": "Tables are objects in a heap with numbers; a view points to the table that made it. Moved tables are C124."
  },
  {
   "property": "C110",
   "status": "proved",
   "theorems": [
    "Astro.C110_frozen",
    "Astro.C110_own",
    "Astro.C110_fresh",
    "Astro.C110_copy"
   ],
   "note": "Views of one column of one table."
  },
  {
   "property": "C111",
   "status": "proved",
   "theorems": [
    "Astro.C111_short",
    "Astro.C111_long",
    "Astro.C111_differs"
   ],
   "note": "Assumes that boost::variant takes a char pointer as bool, by overload resolution."
  },
  {
   "property": "C112",
   "status": "proved",
   "theorems": [
    "Astro.C112_error",
    "Astro.C112_latitude",
    "Astro.C112_moderate",
    "Astro.C112_kept"
   ],
   "note": "IEEE 754 double arithmetic, round to nearest even, no excess precision or fused operations; sine and cosine are parameters with a stated accuracy; the sign of zero is not kept, longitude (atan2) is not included. The arc sine is exact."
  },
  {
   "property": "C113",
   "status": "proved",
   "theorems": [
    "Astro.C113_zenith",
    "Astro.C113_equator",
    "Astro.C113_exact",
    "Astro.C113_only_pole",
    "Astro.C113_galactic"
   ],
   "note": "IEEE 754 double arithmetic, round to nearest even, no excess precision or fused operations; sine and cosine are parameters with a stated accuracy; the sign of zero is not kept, longitude (atan2) is not included. The arc sine is exact."
  },
  {
   "property": "C114",
   "status": "proved",
   "theorems": [
    "Astro.C114_hole",
    "Astro.C114_galactic"
   ],
   "note": "IEEE 754 double arithmetic, round to nearest even, no excess precision or fused operations; sine and cosine are parameters with a stated accuracy; the sign of zero is not kept, longitude (atan2) is not included. The arc sine is exact."
  },
  {
   "property": "C115",
   "status": "proved",
   "theorems": [
    "Astro.C115_longitude"
   ],
   "note": "IEEE 754 double arithmetic, round to nearest even, no excess precision or fused operations; sine and cosine are parameters with a stated accuracy; atan2 is exact, the sign of zero is not kept (it only matters up to a full turn)."
  },
  {
   "property": "C116",
   "status": "proved",
   "theorems": [
    "Astro.C116_degrees",
    "Astro.C116_radians"
   ],
   "note": "IEEE 754 double arithmetic, round to nearest even, no excess precision or fused operations; long double is a parameter with relative error at most 2^-53."
  },
  {
   "property": "C117",
   "status": "proved",
   "theorems": [
    "Astro.C117_spherical",
    "Astro.C117_equatorial",
    "Astro.C117_axis"
   ],
   "note": "IEEE 754 double arithmetic, round to nearest even, no excess precision or fused operations; boost::geometry::transform as in Model/Rep; the functions of <cmath> are parameters with a stated accuracy (atan2 up to full turns); one unit for all coordinates."
  },
  {
   "property": "C118",
   "status": "proved",
   "theorems": [
    "Astro.C118_constructor",
    "Astro.C118_away",
    "Astro.C118_make",
    "Astro.C118_lost",
    "Astro.C118_axis",
    "Astro.C118_polar"
   ],
   "note": "IEEE 754 double arithmetic, round to nearest even, no excess precision or fused operations; boost::geometry::transform as in Model/Rep; the functions of <cmath> are parameters with a stated accuracy (atan2 up to full turns); one unit for all coordinates."
  },
  {
   "property": "C119",
   "status": "proved",
   "theorems": [
    "Astro.C119_cosine",
    "Astro.C119_error",
    "Astro.C119_moderate",
    "Astro.C119_resolution",
    "Astro.C119_symmetric",
    "Astro.C119_self",
    "Astro.C119_self_exact",
    "Astro.C119_origin",
    "Astro.C119_meaning"
   ],
   "note": "IEEE 754 double arithmetic, round to nearest even, no excess precision or fused operations; the functions of <cmath> are parameters with a stated accuracy (atan2 up to full turns, acos NaN outside of [-1, 1]); one unit for both distances, angles in radians."
  },
  {
   "property": "C120",
   "status": "proved",
   "theorems": [
    "Astro.C120_error",
    "Astro.C120_meridian"
   ],
   "note": "IEEE 754 double arithmetic, round to nearest even, no excess precision or fused operations; the functions of <cmath> are parameters with a stated accuracy (atan2 up to full turns, acos NaN outside of [-1, 1]); one unit for both distances, angles in radians."
  },
  {
   "property": "C121",
   "status": "proved",
   "theorems": [
    "Astro.C121_chain",
    "Astro.C121_moderate",
    "Astro.C121_round_trip",
    "Astro.C121_round_trip_moderate",
    "Astro.C121_nan",
    "Astro.C121_meaning"
   ],
   "note": "IEEE 754 double arithmetic, round to nearest even, no excess precision or fused operations; the functions of <cmath> are parameters with a stated accuracy (atan2 up to full turns, asin NaN outside of [-1, 1], sine and cosine of NaN are NaN); angles in radians. Chains with the galactic matrices, which are no exact rotations (C56), are in C143."
  },
  {
   "property": "C122",
   "status": "proved",
   "theorems": [
    "Astro.C122_defined",
    "Astro.C122_ordered",
    "Astro.C122_integers",
    "Astro.C122_middle",
    "Astro.C122_unique",
    "Astro.C122_value"
   ],
   "note": "std::nth_element is a parameter with the contract of [alg.nth.element]; a comparison that is no strict weak ordering of the pixels is undefined behaviour. The sign of zero is not seen by the comparison, so which of two zeros is returned is open."
  },
  {
   "property": "C123",
   "status": "proved",
   "theorems": [
    "Astro.C123_sum",
    "Astro.C123_mean",
    "Astro.C123_cross",
    "Astro.C123_dot",
    "Astro.C123_plus",
    "Astro.C123_cancel"
   ],
   "note": "In the arithmetic of C104-C108 with the <cmath> functions as parameters of stated accuracy; one unit of length, radians."
  },
  {
   "property": "C124",
   "status": "proved",
   "theorems": [
    "Astro.C109_values",
    "Astro.C124_moved",
    "Astro.C124_assigned",
    "Astro.C124_behind"
   ],
   "note": "Implicit moves of the compiler; a moved-from unordered_map is taken to be empty (its content is unspecified; C124_moved, C124_assigned and C124_behind do not use it)."
  },
  {
   "property": "C125",
   "status": "proved",
   "theorems": [
    "Astro.C125_open",
    "Astro.C125_ascii",
    "Astro.C125_binary",
    "Astro.C125_image",
    "Astro.C125_alone",
    "Astro.C125_save",
    "Astro.C125_last_ascii",
    "Astro.C125_last_binary"
   ],
   "note": "HDUs of unsupported kind are excluded in C125_save (they are dropped when writing, C35); HDUs are addressed by index (C33 relates names to indices)."
  },
  {
   "property": "C126",
   "status": "proved",
   "theorems": [
    "Astro.C126_stored",
    "Astro.C126_back",
    "Astro.C126_order",
    "Astro.C126_radian",
    "Astro.C126_degrees",
    "Astro.C126_place",
    "Astro.C126_half_turn",
    "Astro.C126_not_exact"
   ],
   "note": "C126_degrees, C126_place, C126_half_turn and C126_not_exact are about the factor 6.28318530718/360 for degrees; it is not in /repo, and Boost was not available to confirm it (nor that the inverse factor is 1.0/factor, used in C126_back and C126_not_exact). C126_stored, C126_order and C126_radian do not depend on it."
  },
  {
   "property": "C127",
   "status": "proved",
   "theorems": [
    "Astro.C127_units",
    "Astro.C127_sum",
    "Astro.C127_mean",
    "Astro.C127_cross",
    "Astro.C127_dot",
    "Astro.C127_magnitude",
    "Astro.C127_angular",
    "Astro.C127_same"
   ],
   "note": "A conversion is taken to be one multiplication by a double; the factors themselves are a parameter. That equal units have factor 1 is assumed of boost::units."
  },
  {
   "property": "C128",
   "status": "proved",
   "theorems": [
    "Astro.C128_times",
    "Astro.C128_magnitude",
    "Astro.C128_unit",
    "Astro.C128_times_one",
    "Astro.C128_coslat"
   ],
   "note": "One unit for lengths, angles in radians. operator+ of differentials has the code of that of representations (C123). Construction, sum and product of coslat differentials are C130."
  },
  {
   "property": "C129",
   "status": "proved",
   "theorems": [
    "Astro.C129_untouched",
    "Astro.C129_exact",
    "Astro.C129_last",
    "Astro.C129_radian",
    "Astro.C129_drift",
    "Astro.C129_direction",
    "Astro.C129_nine",
    "Astro.C129_proper_motion",
    "Astro.C129_others"
   ],
   "note": "Units by their factor to radians; that the factor back is its rounded reciprocal, and the factor of degrees in C129_nine and C129_proper_motion, are assumptions about boost::units made from memory. C129_direction asks that the values read are numbers, which C129_drift gives, and a positive factor."
  },
  {
   "property": "C130",
   "status": "proved",
   "theorems": [
    "Astro.C130_spherical",
    "Astro.C130_make",
    "Astro.C130_plus",
    "Astro.C130_times",
    "Astro.C130_turns"
   ],
   "note": "One unit for lengths, angles in radians. The second operand of the sum is not coslat (a coslat one is first made Cartesian, C128_coslat) and the operands do not nearly cancel. Polar angles of spherical differentials up to 4."
  },
  {
   "property": "C131",
   "status": "proved",
   "theorems": [
    "Astro.C131_chain",
    "Astro.C131_moderate",
    "Astro.C131_degrees",
    "Astro.C131_degrees_moderate",
    "Astro.C131_obliquity"
   ],
   "note": "The accuracy of the library functions is a hypothesis. The factor of degrees is assumed, not taken from /repo (Boost was not available). Conversions with the galactic matrices, which are not rotations, are in C143, in radians, and C145."
  },
  {
   "property": "C132",
   "status": "proved",
   "theorems": [
    "Astro.C132_copy",
    "Astro.C132_same_iff",
    "Astro.C132_again"
   ],
   "note": "HDUs without data and 8 bit images do not fit (DataFits): those are C32 and C21."
  },
  {
   "property": "C133",
   "status": "proved",
   "theorems": [
    "Astro.C133_invariant",
    "Astro.C133_equatorial",
    "Astro.C133_frame_iff",
    "Astro.C133_frame_changes",
    "Astro.C133_chain",
    "Astro.C133_moderate"
   ],
   "note": "The claim is false for the frame classes of the library: C133_frame_iff says when it holds."
  },
  {
   "property": "C134",
   "status": "proved",
   "theorems": [
    "Astro.C134_entire",
    "Astro.C134_entire_total",
    "Astro.C134_entire_limit",
    "Astro.C134_headers",
    "Astro.C134_headers_total",
    "Astro.C134_headers_limit"
   ],
   "note": "Outcomes are exclusive (endsIn_unique). Why a header or an HDU is refused is the subject of C11, C29, C30, C85, C86."
  },
  {
   "property": "C135",
   "status": "proved",
   "theorems": [
    "Astro.C135_direction",
    "Astro.C135_moderate",
    "Astro.C135_rises"
   ],
   "note": "The multiplication by 15 degrees is the program's, not the library's. Fractions of a second do not count (C80). The factor of degrees of boost::units is an assumption, as in C126."
  },
  {
   "property": "C136",
   "status": "proved",
   "theorems": [
    "Astro.C136_gst",
    "Astro.C136_gst_julian",
    "Astro.C136_lst",
    "Astro.C136_sidereal_day",
    "Astro.C136_switch"
   ],
   "note": "The jump at the change of the calendar is a defect of the code (see C47). Fractions of a second do not count (C80)."
  },
  {
   "property": "C137",
   "status": "proved",
   "theorems": [
    "Astro.C137_fits_handler",
    "Astro.C137_std_handler",
    "Astro.C137_raw_card",
    "Astro.C137_create",
    "Astro.C137_create_cstr",
    "Astro.C137_commentary",
    "Astro.C137_set_value",
    "Astro.C137_keyword",
    "Astro.C137_value_with_comment",
    "Astro.C137_value",
    "Astro.C137_value_string",
    "Astro.C137_value_float",
    "Astro.C137_value_of",
    "Astro.C137_value_of_string",
    "Astro.C137_value_of_missing",
    "Astro.C137_naxis",
    "Astro.C137_get_column",
    "Astro.C137_ascii_read",
    "Astro.C137_binary_read",
    "Astro.C137_update",
    "Astro.C137_open_entire",
    "Astro.C137_open_headers",
    "Astro.C137_escapes",
    "Astro.C137_access",
    "Astro.C137_classes"
   ],
   "note": "Equalities of sets: nothing else comes out and every member does, for objects programs can have. For floating point values the text functions are arbitrary, so only the inclusion is stated. The bases of the Boost exceptions are assumptions. That the file can be opened at all is assumed (otherwise file_reading_exception); std::bad_alloc is not modelled."
  },
  {
   "property": "C138",
   "status": "proved",
   "theorems": [
    "Astro.C138_separation",
    "Astro.C138_moderate",
    "Astro.C138_position",
    "Astro.C138_visible"
   ],
   "note": "Angles in degrees are stored in radians with the factor of boost::units, which is an assumption (quoted from memory, see Model/QtyDouble). positional_angle takes the first angle as latitude, as in C120."
  },
  {
   "property": "C139",
   "status": "proved",
   "theorems": [
    "Astro.C139_history",
    "Astro.C139_constructed",
    "Astro.C139_populate",
    "Astro.C139_scale",
    "Astro.C139_set_data",
    "Astro.C139_unscaled",
    "Astro.C139_ascii",
    "Astro.C139_binary"
   ],
   "note": "Copying an object whose numbers are indeterminate is taken to copy its bytes, although the standard leaves it undefined."
  },
  {
   "property": "C140",
   "status": "proved",
   "theorems": [
    "Astro.C140_quantities",
    "Astro.C140_coslat",
    "Astro.C140_radians",
    "Astro.C140_spherical",
    "Astro.C140_equatorial",
    "Astro.C140_plain",
    "Astro.C140_plain_equatorial",
    "Astro.C140_lost",
    "Astro.C140_independent"
   ],
   "note": "The conversion factors of boost::units and sine, cosine and their inverses are parameters with accuracy assumptions; atan2 is assumed to return at most 4 in absolute value."
  },
  {
   "property": "C141",
   "status": "proved",
   "theorems": [
    "Astro.C141_sum",
    "Astro.C141_plus",
    "Astro.C141_cartesian",
    "Astro.C141_same",
    "Astro.C141_times"
   ],
   "note": "The conversion factors of boost::units and the functions of <cmath> are parameters with accuracy assumptions. Sums of coslat differentials are in C142."
  },
  {
   "property": "C142",
   "status": "proved",
   "theorems": [
    "Astro.C142_plus",
    "Astro.C142_coslat",
    "Astro.C142_times"
   ],
   "note": "The conversion factors of boost::units and the functions of <cmath> are parameters with accuracy assumptions."
  },
  {
   "property": "C143",
   "status": "proved",
   "theorems": [
    "Astro.C143_chain",
    "Astro.C143_defined",
    "Astro.C143_moderate",
    "Astro.C143_not_back"
   ],
   "note": "Reference are the seven-digit galactic matrices of the code in exact arithmetic, not the true galactic system; they change squares of lengths by up to 1.9e-7, which is where k/2000 comes from. Functions of <cmath> are parameters with a stated accuracy; angles in radians."
  },
  {
   "property": "C144",
   "status": "proved",
   "theorems": [
    "Astro.C144_notes",
    "Astro.C144_snapshot",
    "Astro.C144_no_store",
    "Astro.C144_put",
    "Astro.C144_moved"
   ],
   "note": "Layout of the table as in C42 (C42_layout_of_made). That p = q uses the copy assignment the compiler adds is a fact about C++, not about Lean. Elements of different types, where p = q is a conversion and does store, are the case p = x. Table copies and moves mixed with variables: C160."
  },
  {
   "property": "C145",
   "status": "proved",
   "theorems": [
    "Astro.C145_chain",
    "Astro.C145_moderate",
    "Astro.C145_degrees",
    "Astro.C145_degrees_moderate"
   ],
   "note": "Assumptions on the mathematical library and on boost::units as in C112 and C126. The exact matrices are those of the code, so the wrong inverse found in C56 is not an error here; see C143_not_back."
  },
  {
   "property": "C146",
   "status": "proved",
   "theorems": [
    "Astro.C146_trip",
    "Astro.C146_inside",
    "Astro.C146_minute",
    "Astro.C146_early",
    "Astro.C146_order"
   ],
   "note": "Double arithmetic as in C52 and C90, rounding to nearest with any choice for halfway cases; printing as in C95."
  },
  {
   "property": "C147",
   "status": "proved",
   "theorems": [
    "Astro.C147_chain",
    "Astro.C147_degrees",
    "Astro.C147_moderate"
   ],
   "note": "Assumptions on the mathematical library and on boost::units as in C131 and C138. Frames with equatorial data, as in C133_chain."
  },
  {
   "property": "C148",
   "status": "proved",
   "theorems": [
    "Astro.C148_integer",
    "Astro.C148_logical",
    "Astro.C148_real",
    "Astro.C148_string",
    "Astro.C148_string_tight",
    "Astro.C148_string_slash",
    "Astro.C148_unit",
    "Astro.C148_complex"
   ],
   "note": "The format of value cards is that of the FITS standard 4.0 as far as it matters here (Spec/ForeignCard). Real numbers as in C96. Cards whose value was not read before."
  },
  {
   "property": "C149",
   "status": "proved",
   "theorems": [
    "Astro.C149_image",
    "Astro.C149_opened",
    "Astro.C149_full_header",
    "Astro.C149_no_extend"
   ],
   "note": "The layout of a primary HDU is that of the FITS standard 4.0 (Spec/ForeignFile), with at most 999 axes."
  },
  {
   "property": "C150",
   "status": "proved",
   "theorems": [
    "Astro.C150_binary",
    "Astro.C150_ascii",
    "Astro.C150_opened",
    "Astro.C150_no_extname",
    "Astro.C150_unsupported",
    "Astro.C150_bits",
    "Astro.C150_other"
   ],
   "note": "No card may have the name of a column as its keyword, and no column may be named like a keyword that is read as a number."
  },
  {
   "property": "C151",
   "status": "proved",
   "theorems": [
    "Astro.C151_opened",
    "Astro.C151_skipped",
    "Astro.C151_shifted"
   ],
   "note": "Built on C149, C150 and C134; tables without a heap (PCOUNT = 0; C150_opened has the heap)."
  },
  {
   "property": "C152",
   "status": "proved",
   "theorems": [
    "Astro.C152_layout",
    "Astro.C152_length"
   ],
   "note": "The contents of the fill bytes are not compared with the standard (blanks are written, zeros are asked for behind images and binary tables; C35)."
  },
  {
   "property": "C153",
   "status": "proved",
   "theorems": [
    "Astro.C153_saved",
    "Astro.C153_kept",
    "Astro.C153_binary",
    "Astro.C153_ascii",
    "Astro.C153_bytes"
   ],
   "note": "Built on C151 and C35; C153_binary, C153_ascii and C153_bytes evaluate the description of the copy in C153_saved."
  },
  {
   "property": "C154",
   "status": "proved",
   "theorems": [
    "Astro.C154_names",
    "Astro.C154_total",
    "Astro.C154_headers"
   ],
   "note": "Built on C151, C33, C34 and C77."
  },
  {
   "property": "C155",
   "status": "proved",
   "theorems": [
    "Astro.C155_binary",
    "Astro.C155_lost",
    "Astro.C155_ascii"
   ],
   "note": "Built on C150, C151, C87 and C96. Arrays of pairs apart (C17)."
  },
  {
   "property": "C156",
   "status": "proved",
   "theorems": [
    "Astro.C156_kinds",
    "Astro.C156_refused",
    "Astro.C156_text",
    "Astro.C156_value",
    "Astro.C156_value_total"
   ],
   "note": "Built on C11, C134 and C151."
  },
  {
   "property": "C157",
   "status": "proved",
   "theorems": [
    "Astro.C157_saved"
   ],
   "note": "Built on C87, C151 and C153."
  },
  {
   "property": "C158",
   "status": "proved",
   "theorems": [
    "Astro.C158_image",
    "Astro.C158_offset",
    "Astro.C158_unsigned",
    "Astro.C158_table"
   ],
   "note": "Built on C151 and C155."
  },
  {
   "property": "C159",
   "status": "proved",
   "theorems": [
    "Astro.C159_mean",
    "Astro.C159_order"
   ],
   "note": "From the bytes of the file to the double that mean() returns; IEEE 754 double arithmetic as in C100, std::nth_element as in C122."
  },
  {
   "property": "C160",
   "status": "proved",
   "theorems": [
    "Astro.C160_snapshot",
    "Astro.C160_lasting",
    "Astro.C160_original",
    "Astro.C160_copy",
    "Astro.C160_gone",
    "Astro.C160_refilled",
    "Astro.C160_alias",
    "Astro.C160_plain"
   ],
   "note": "C160_original, C160_copy, C160_gone and C160_refilled start from any state of tables whose views point to their own matrix (Separate of C109). Where pointers into an std::unordered_map lead after copies, moves and assignments is taken from the C++ standard; after an assignment to the table the standard leaves open whether the old view is overwritten or destroyed, which counts as undefined here."
  },
  {
   "property": "C161",
   "status": "proved",
   "theorems": [
    "Astro.C161_cached",
    "Astro.C161_follows",
    "Astro.C161_update",
    "Astro.C161_copied"
   ],
   "note": "C161_follows starts from any state of tables whose views point to their own matrix (Separate of C109); the others from any state. That copying a view copies its cache and its pointer is what the C++ compiler generates. Several views of one table that stays where it is: C110."
  }
 ]
}
