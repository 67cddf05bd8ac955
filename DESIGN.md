# Design: a Lean model of the boost astronomy library

/repo is a header-only C++ library: FITS files, time conversions, coordinates.  This project models it function by function in Lean 4 and proves
the properties listed in `properties.jsonl`.  `MANIFEST.json` names the theorems of each property, `seeded/LOG.jsonl` records the attempts to break
the model and which theorems noticed.

## Layout

* `lean/Verif/Model/*`   the model; each definition cites file and lines in /repo
* `lean/Verif/Spec/*`    small independent specifications used in the theorem statements
* `lean/Verif/Lemmas/*`  helper lemmas
* `lean/Verif/Props/*`   the property theorems (`C01_...`), each group with concrete `example`s beside it

## Trusted base

* The Lean 4.33.0 kernel.  No axioms of our own; no `sorry`, `native_decide` or `bv_decide`.
* Axioms of Lean that the theorems depend on, according to `#print axioms` over all theorems of the manifest.  All depend on
  `propext`, `Classical.choice`, `Quot.sound`, except these, which need less:
  * none: C85_get_data, C91_card_count_default, C137_keyword
  * `propext` only: C08_reads_preserve_card, C08_read_repeatable, C08_failed_read_harmless, C09_create_then_read_fails, C18_bool_round_trip,
    C18_bools_decode, C19_element_count_reject, C23_pixel_after_read, C23_pixel_wrong, C23_pixel_with_width, C26_get_end, C26_write_at, C29_data_size,
    C41_tiling, C42_reads_pure, C91_values_keep, C110_frozen, C124_behind, C125_image, C137_fits_handler, C137_std_handler, C137_value_float,
    C139_constructed, C139_populate, C144_no_store, C144_moved
  * `propext`, `Quot.sound`: C12_commentary, C16_bytes, C18_bool_decode, C23_sized, C24_unit_end, C24_extra_block, C25_write_header,
    C25_card_positions, C26_read, C26_read_exact, C26_failed_forever, C26_end_never_reported, C26_at_end, C26_get, C26_write, C33_index, C35_dropped,
    C40_letter, C42_last_write, C43_not_found, C109_values, C109_dangling, C110_own, C110_copy, C111_short, C124_moved, C124_assigned, C125_ascii,
    C125_binary, C137_raw_card, C137_commentary, C137_value_with_comment, C137_value, C137_value_string, C137_naxis, C137_get_column, C137_ascii_read,
    C137_binary_read, C137_update, C137_open_entire, C137_open_headers, C137_escapes, C137_classes, C139_history, C139_set_data, C139_unscaled,
    C144_snapshot, C156_value_total, C160_snapshot, C160_lasting, C160_gone, C160_alias, C160_plain, C161_cached, C161_follows, C161_copied
* Mathlib's definitions of the real numbers, trigonometric functions, complex argument, angles and matrices.
* That the model says what the C++ says.  The code was read, never run; each definition carries its citation so that it can be compared.
* What the C++ standard library and Boost do: `std::fstream`, `std::string`, `boost::algorithm::trim`, `boost::lexical_cast` for integers,
  `boost::variant`, `boost::geometry::transform`, `boost::units` conversions, `std::nth_element`, `std::to_string`, pointers to elements of `std::unordered_map` and `std::vector` when these are copied, moved or destroyed (Model/TableCopy, Model/HeapProxy, Model/HeapView), `ostream << double`, `boost::lexical_cast<double>`.  Their assumed
  behaviour is written down as definitions in Model/Basic, Model/Stream, Model/Rep, Model/Image, Model/Print, Model/Float, Model/Stats, Model/VecDouble,
  Model/CardSet (a `boost::variant` with a `bool` alternative takes a C string as `true`) and Model/RotDouble (ublas `prod` adds from left to right).
* Boost is neither in /repo nor on the machine where this was written, so nothing about it could be checked.  For `boost::units` in double arithmetic
  (Model/QtyDouble) three things are assumed from memory: a conversion is one multiplication by a `double`; the inverse factor is `1.0/factor`; the factor of degrees is
  `6.28318530718/360.`.  The degree results stand or fall with that constant; the theorems whose statement or proof uses
  it are C126_degrees, C126_half_turn, C126_not_exact, C126_place, C129_nine, C129_proper_motion, C131_degrees, C131_degrees_moderate, C135_direction, C135_moderate,
  C135_rises, all of C138, C145_degrees, C145_degrees_moderate, C147_degrees and C147_moderate (found by following the constants each theorem of C100-C161 uses).

## Modelling choices

* A C++ `char` is a byte (`UInt8`), a `std::string` a list of bytes.  `std::size_t` has 64 bits and wraps.  The machine is little-endian.
* Exceptions and undefined behaviour are values of one outcome type, `Except Err a`, with a constructor of its own for undefined behaviour (`Err.ub`).
  Functions that leave a half-modified object behind when they throw return the object next to the outcome.  Theorems about success never count
  undefined behaviour as success, and C11, C17, C22, C36, C73, C74, C85, C86, C87, C92 say exactly where it occurs.
* Loops that may diverge take a fuel argument; "diverges" is "no amount of fuel suffices".
* Value caches of cards are part of the model (they are observable: C08, C09, C71, C72, C91).
* Floating point numbers in files are bit patterns.  Their decimal text (cards, ASCII tables) is an arbitrary pair of functions, over which theorems
  quantify, except in C96-C99, C148_real, C148_complex and C155_ascii: there it is `ieeeText`, `%g` with six digits and `strtod` as libstdc++ and glibc have them (correctly rounded, ties to even,
  overflow refused, underflow accepted, no hexadecimal numbers).  As a test, not a proof, 400 random doubles printed and 400 random numerals read by it were
  compared with Python's `%g` and `float()` (glibc was not called), without a difference.
* Time: a `double` is a rational number and every operation is followed by a rounding function.  C46-C48 and C80 hold for every monotone rounding that is
  exact on doubles; C52, C88-C90, C95, C135 and C146 for rounding to nearest with any tie rule (overflow, fused operations and excess precision are not
  modelled); C49-C51 and C52_parts for arithmetic without rounding.  The special values of ptime (`not_a_date_time`, infinities) are not modelled.
  `ieee` (Lemmas/Ieee) is round to nearest even as a rounding in this sense, so none of these hypotheses is empty.
* Image statistics: C22 has rational pixels and no rounding.  C100-C103 and C159 have the pixels' bits and IEEE double arithmetic (round to nearest even, correctly
  rounded square root, infinities, NaN; the sign of zero is not kept, excess precision and fused operations are not modelled).  median on pixels is C122, with
  `std::nth_element` as a parameter.
* Coordinates are real numbers and rounding is not modelled, except in C104-C108: vector arithmetic on Cartesian representations of doubles with one unit,
  in the IEEE arithmetic of C100-C103 (`std::pow(x, 2)` is taken as `x * x` rounded once), and C112-C115: the conversion matrices in that arithmetic, with sine and cosine of stated accuracy as
  parameters, C116: the obliquity, C117, C118: conversions
  between Cartesian and angular representations, C119, C120: separation and positional angle, C121, C143: chains of conversions, C123: arithmetic on angular representations, C126: angles in degrees, C127: vectors with different units, C128: products, magnitude and unit vectors of differentials, C129: setters and getters of frames, C130: coslat differentials, C131: conversions by angles in degrees, C140: frames built from representations, and C141, C142: sums of objects with different units, with all functions of <cmath> as parameters.  Arc sine and `atan2` are exact in C112-C115 (not in C117-C131).
  sky_point::is_equivalent_system, a comparison of types, is not modelled.  That the functions of <cmath> and the conversion factors of boost::units are as accurate as assumed
  is the main gap between these theorems and the running code.  A unit is a positive scale factor.  A number the code leaves uninitialised is an arbitrary value, over which theorems quantify.  In column metadata (C139) reading one is
  undefined behaviour; copying it along with the object, strictly undefined too, is not counted as such (otherwise every column view without TSCALn would be).
* White space is that of the C locale.  Row counters of type `int` are natural numbers: fewer than 2^31 rows.
* A class template's arguments (pixel type, units, coordinate system) are fields or parameters of the model's objects; `static_assert` failures and other
  compile errors are not modelled, they are listed below.

## Parts of the code

Modelled (model file in brackets):

* io/card.hpp, io/default_card_policy.hpp [Card, CardSet]; io/header.hpp [Header]; io/fits_stream.hpp [Stream]; io/bitpix.hpp [Bitpix]; io/image.hpp [Image, Stats, Median];
  io/binary_data_converter.hpp, io/string_conversion_utility.hpp [Convert, View, Float]; io/ascii_table.hpp, io/binary_table.hpp, io/table_extension.hpp,
  io/column.hpp [Table]; io/column_data.hpp [View, TableCopy, Proxy, HeapProxy, HeapView]; io/primary_hdu.hpp, io/image_extension.hpp, io/extension_hdu.hpp, io/default_hdus.hpp,
  io/fits_reader.hpp [Fits]; io/fits.hpp [Session]
* time/time_conversions.hpp, time/parser.hpp [Time, Print]
* coordinate/utility/utility.hpp [Rotation, RotDouble, ChainDouble, UnitChain, GalacticUnits, Obliquity]; coordinate/rep/*.hpp, coordinate/arithmetic.hpp [Rep, VecDouble, RepDouble, AngDouble, QtyDouble]; coordinate/diff/*.hpp [Diff, DiffDouble, CosLatDouble];
  coordinate/ref_frame/*.hpp, coordinate/coord_sys/*.hpp, coordinate/sky_point.hpp [Frame, FrameDouble; icrs, geocentric and heliocentric only forward to their base]; coordinate/io/io.hpp and the `operator<<` of the two-angle
  coordinates [Print]

Not modelled:

* The text boost::units prints for a quantity; locales other than "C".
* Moving from objects other than tables, threads, memory exhaustion (an absurd TFIELDS would allocate first), errors of the
  disk, files of 2^63 bytes and more.
* detail/is_base_template_of.hpp and units/length.hpp: compile time only.  The texts of exceptions (the classes of exception/fits_exception.hpp are in Model/Exceptions, those thrown the
  constructors of `Err` in Model/Basic).
* Code that cannot be instantiated or linked: cirs::get_obs_time/set_obs_time (undeclared member), supergalactic::set_sgl (const), alt_az::set_az (wrong
  quantity), make_equatorial_ha_coord, make_equatorial_ra_coord, make_galactic_coord with two different units (return type has them swapped), the
  const `operator==` of headers and, of sky_point, transform_to, from_name, get_constillation and the constructors from a name or another system
  (declared, never defined).

## Properties

| id | title | Props/ file | how it is proved |
|----|-------|------|------------------|
| C01 | A created card is exactly 80 bytes | Card | createCard in closed form; compared with the independent layout Spec.Layout (justification as relations) |
| C02 | Card creation accepts exactly the inputs that fit | Card | decision equivalence by case analysis on the two validity tests; exact limits for integers and strings |
| C03 | Keyword read back from a created card | Card | trimming lemmas over byte lists |
| C04 | Integer values survive a card round trip | Card | decimal printer and lexical_cast parser are inverse (strong induction); window lemma for extract_value |
| C05 | Boolean values survive a card round trip | Card | same window lemma |
| C06 | String values survive a card round trip exactly when '/' does not interfere | Card | same window lemma; iff, with the failing case ('/' inside) characterised |
| C07 | Complex integer values survive a card round trip only by accident | Card | the first blank of the serialised text splits the pair wrongly; iff for the pairs that survive |
| C08 | Reading a card value is repeatable and never changes the card | CardState | invariant over arbitrary sequences of reads |
| C09 | Re-creating a card does not invalidate an earlier read | CardState | histories create/read/create/read: the cached value wins; negation of freshness proved |
| C10 | What set_value does to a card | CardState | case analysis; the produced card text does not parse again |
| C11 | Raw card strings: accept, reject or out-of-range | CardState | decision equivalence over all byte strings, three outcomes |
| C12 | Commentary cards | CardState | case analysis on lengths; the outcome carries the object left behind by an exception |
| C13 | Created cards re-parse to equal cards | CardState | composition of the C01 layout with the C11 decision |
| C14 | Value-with-comment text | CardState | closed form and trimming |
| C15 | Binary scalars: encode and decode are inverse and big-endian | Convert | positional big-endian specification (sum of digits times 256^k) against shifts/byte swaps |
| C16 | Binary vectors and complex numbers | Convert | induction on lists |
| C17 | Vectors of 32-bit pairs are decoded with overlapping words | Convert | characterisation of the decoded list (overlap) and iff for the lists that survive |
| C18 | Boolean fields | Convert | induction on lists |
| C19 | Element count of a column format | Convert | exact characterisation over all format strings |
| C20 | Image data round trip | Image | induction from C15 |
| C21 | 8-bit images read as zeros | Image | induction: every 8-bit pixel decodes to 0 |
| C22 | Image statistics | Image | rational arithmetic; order statistics by counting, independence of order by permutations |
| C23 | Pixel access after reading a file | Image | index arithmetic after read_image (width stays 0) |
| C24 | Unit end is the next multiple of 2880 strictly after the position | Stream | modular arithmetic |
| C25 | Written header occupies whole blocks | Header | stream model (content, position, fail flag) |
| C26 | Bounded reads | Stream | invariant over sequences of reads |
| C27 | Header write/read round trip | Header | induction on the card list |
| C28 | Header lookup returns the last card with the keyword | Header | fold over cards against find in the reversed list |
| C29 | BITPIX, NAXIS and data size | Header | loop invariants, wrapping 64-bit product |
| C30 | Headers without END never finish | Header | fuel model: "never ends" is "no fuel suffices"; exact iff for termination |
| C31 | File write/open round trip | Fits, FitsRoundTrip | induction on the HDU list from C27; iff for what opens |
| C32 | HDUs without data break the round trip | FitsEmpty | universal negation, both for a last and for an inner HDU |
| C33 | HDU access by name and by index | Fits | association list |
| C34 | HDU kind is decided by SIMPLE and XTENSION | HduKind | decision equivalence on the SIMPLE and XTENSION cards |
| C35 | Write order and dropped HDUs | FitsWrite | induction |
| C36 | ASCII table cells | ForeignTable, Table | cells as slices of the buffer, iff for success |
| C37 | ASCII table write/parse | TableData | induction on rows and cells |
| C38 | Binary table cells lose white-space bytes at their ends | TableData | slices and trim fixpoint |
| C39 | Binary table write/parse | TableData | concatenation lengths |
| C40 | Column widths | Table | decision tables over all format strings |
| C41 | Binary columns tile the row | ForeignTable, TableData | prefix sums |
| C42 | A column view behaves like an array of typed cells | TableNames, View | refinement to plain arrays by simulation, for operation sequences of any length |
| C43 | Column lookup by name | TableData | find? specification |
| C44 | Column views survive replacing the table data | View | history theorem |
| C45 | A column has one element type per table object | View | invariant over access histories |
| C46 | Julian date counts days | Time | integer arithmetic against an independent recursive calendar, for every monotone exact rounding |
| C47 | Julian calendar dates and the switch | Time | same; jump at the switch to the Gregorian calendar |
| C48 | Julian date ignores the time of day | Time | depends on the date only |
| C49 | Sidereal time is in [0,24) hours and follows its formula modulo 24 | Time | floor reduction over the rationals |
| C50 | Local sidereal time | Time | floor reduction over the rationals |
| C51 | Decimal hours split into hours, minutes and seconds | Time | truncation arithmetic, with uniqueness of the split |
| C52 | Decimal hours built from parts forget the parts | Time, TimeDouble | closed form; rounding error bound in doubles |
| C53 | Rotation matrices preserve lengths and angles | Rotation | matrices over the reals, trigonometric identities |
| C54 | Horizon and hour-angle conversions are involutions | Rotation | same |
| C55 | Ecliptic conversions are mutually inverse | Rotation | same |
| C56 | Galactic conversions are not inverse to each other | Rotation | rational matrices, explicit bounds; the inverse property is refuted with the size of the error |
| C57 | Direction vectors and angles | Rotation | atan2 as Complex.arg, arcsin with domain |
| C58 | Coordinate conversion round trip on angles | Rotation | composition |
| C59 | Cartesian and spherical representations convert back and forth | Rep | Complex.arg / arccos lemmas; every value an uninitialised number may have |
| C60 | Dot and cross products do not depend on units | Rep | polynomial identities with unit scales |
| C61 | Unit vectors | Rep | field arithmetic; counterexample for mixed units |
| C62 | Sum and mean of representations | Rep | field arithmetic |
| C63 | Equality of representations ignores units | Rep | equivalence laws, witnesses |
| C64 | Differential algebra | Diff | field arithmetic |
| C65 | Round trip through cos(lat)-weighted differentials | Diff | case distinction on the sign of x; iff for losslessness |
| C66 | Angular separation | Frame | inner products, Mathlib angles (triangle inequality); iff for agreement with the true separation |
| C67 | Position angle | Frame | Complex.arg laws against a bearing defined by north/east vectors |
| C68 | Frame accessors | Frame | last-write specification over sequences of setter calls |
| C69 | Obliquity of the ecliptic | Rotation | polynomial, monotonicity by nlinarith |
| C70 | Two-angle coordinate systems store what was given | Frame | last-write specification over sequences of setter calls |
| C71 | BITPIX and NAXIS values are frozen to one type | Header | cache invariant established by reading the header |
| C72 | Column names that are structural keywords | TableNames | cached numeric value refuses the string read; for all structural keywords |
| C73 | Assignment through column[row] needs the old value to decode | View | case analysis on decoding the old cell |
| C74 | Numbers in binary table cells | View | slices, trimming and big-endian arithmetic |
| C75 | Truncated files | Fits, FitsModes | C31 iff plus stream exhaustion; fuel model |
| C76 | Reusing a reader | FitsModes | state of the reader across initialize |
| C77 | Headers-only mode | FitsModes | induction on the file layout |
| C78 | Wrapping data length in headers-only mode | FitsModes | 64-bit wrap: the position returns to the same header; fuel model |
| C79 | Writing after headers-only mode loses the data | FitsModes | closed form of the written bytes |
| C80 | Sidereal time ignores fractions of a second | Time | definition does not use the fraction |
| C81 | get_proper_motion ignores units | Frame | unit arithmetic, iff |
| C82 | What the conversion matrices mean | Rotation | astronomical meaning of each matrix stated on directions; explicit bounds for the galactic one |
| C83 | Quantities, units and to_representation | Rep | unit arithmetic |
| C84 | cos(lat)-weighted differentials: getters, sum, product | Diff | unit arithmetic, spherical normalisation in Cartesian form |
| C85 | Primary HDUs and image extensions hold what cards and data say | Hdu | iff over the cards; written bytes in closed form |
| C86 | Which table headers are accepted | Hdu | iff over the cards and the data, order of exceptions, exact condition for undefined behaviour |
| C87 | Typed values survive writing and parsing a table | Cell | encode/decode inverse per type, then the C42 refinement carried across write and parse |
| C88 | Greenwich sidereal time in double arithmetic | TimeDouble | error analysis of every operation, round to nearest with any tie rule; spacing of doubles near multiples of 24 |
| C89 | Local sidereal time in double arithmetic | TimeDouble | same; existence of a longitude giving 24.0 for every tie rule |
| C90 | Decimal hours in double arithmetic | TimeDouble | same; minutes and seconds stay below 60 |
| C91 | Card count, number of axes and comparison of headers | HeaderAccess | closed forms; comparison as equality of card texts |
| C92 | Cards created from C strings | CardText | closed form against the numeric cards, window lemma |
| C93 | Frames built from a position and a motion | FrameBuild | unit arithmetic; C65 for plain differentials; iff for the weight |
| C94 | Printed coordinates can be told apart | Print | texts split at the first comma |
| C95 | Printed decimal hours | Print | rounding to millionths, unique decomposition of the text, C90 |
| C96 | Which decimal texts are floating point numbers | Float | scanner against a grammar of numerals (unique decomposition); rounding to nearest as minimal distance over all numbers of the format |
| C97 | How floating point numbers are written | Float | six-digit rounding as minimal distance over all six-digit decimals; layout by cases on the decimal exponent |
| C98 | What becomes of floating point numbers on cards and in ASCII tables | Float | composition of C96 and C97; spacing of six-digit decimals against spacing of the floating point numbers |
| C99 | Complex floating point cards cannot be read back | Float | first-blank lemma of C07 with the length bound of C97 |
| C100 | Mean and deviation of integer images in double arithmetic | Stats | sums of integers below 2^53 are exact; one rounding; the mean is a multiple of 2^-98; induction on replicated pixels for the failure |
| C101 | Rounding errors of mean and deviation | Stats | forward error analysis by induction on the pixels; square root located on the grid of half units |
| C102 | NaN, infinity and overflow in image statistics | Stats | NaN and infinity absorb in folds; signs of sums of squares |
| C103 | Largest and smallest pixel with NaN | Stats | first extreme element of a strict weak order, uniqueness |
| C104 | Dot product in double arithmetic | VecDouble | forward error analysis of three products and two sums; symmetry of multiplication with infinities and NaN |
| C105 | Cross product in double arithmetic | VecDouble | rounding is odd; forward error analysis; witness for the loss of orthogonality |
| C106 | Magnitude of a vector in double arithmetic | VecDouble | forward error analysis with the relative error of a rounded root; a rounded root of a rounded square is not below its argument (spacing of doubles) |
| C107 | Unit vector in double arithmetic | VecDouble | quotients by a magnitude that is not below the coordinate; error analysis in real numbers |
| C108 | Sum and mean of vectors in double arithmetic | VecDouble | rounding to nearest is monotone and exact on doubles; halves are exact unless tiny, tiny sums are exact |
| C109 | Copies of tables share the views, not the data | TableCopy | simulation between a heap of tables with pointers and independent values, induction on programs; explicit program for each copy that breaks it |
| C110 | Several views of one column | TableCopy | invariants over lists of operations on any number of views |
| C111 | set_value with a C string | CardSet | computation of the card text with symbolic strings |
| C112 | Accuracy of coordinate conversions in double arithmetic | RotDouble | error propagation through products and sums of numbers of size one (intervals around real numbers), Cauchy-Schwarz for the rows; spread of the arc sine from sum-to-product formulas |
| C113 | Where a conversion gives no latitude | RotDouble | Taylor polynomials with remainder pin down the closest doubles of sine and cosine of 8 degrees, the rest is computed by the kernel; elsewhere C112 |
| C114 | Latitudes near the poles | RotDouble | spacing of doubles below 1; cosine bound; Cauchy-Schwarz with the norm of the third rows |
| C115 | Accuracy of longitudes after a conversion in double arithmetic | RotDouble | C112 and the angle between nearby complex numbers |
| C116 | Accuracy of the obliquity of the ecliptic | Obliquity | error propagation through sums, products and quotients away from zero, with the rounding of the constants |
| C117 | Accuracy of Cartesian coordinates computed from angles | RepDouble | error propagation relative to the distance |
| C118 | Cartesian coordinates to angles and back in double arithmetic | RepDouble | as C117, with C107 and the spread of the sine as a function of the cosine; exact computation next to the axis by monotonicity of rounding |
| C119 | Angular separation in double arithmetic | SepDouble | as C117 for the cosine; spread of the arc cosine, spacing of doubles below 1; the separation NaN is computed by the kernel from the closest doubles of C113 |
| C120 | Positional angle in double arithmetic | BearingDouble | error propagation as in C112, angle between nearby complex numbers as in C115 |
| C121 | Chains of coordinate conversions in double arithmetic | ChainDouble | one step by C112 and the spread of the square root and of the argument, then induction over the chain: exact rotations keep distances |
| C122 | Median of the pixels themselves | Median | counting before and after the position, from the contract of nth_element; strict weak ordering of the pixels decided exactly |
| C123 | Arithmetic on angular representations in double | AngDouble | C104, C105, C108, C117 and C118 composed: errors as distances in space, the triangle inequality |
| C124 | Moving tables and changing them behind their views | TableCopy | the simulation of C109 with moves and direct changes of the matrix; explicit programs with all their results |
| C125 | Open, edit, save, open again | Session | induction on the program: an HDU is changed by its own statements only; shape of the cells as an invariant; then C31, C42 and C87 |
| C126 | Angles in degrees, in double arithmetic | QtyDouble | relative error of factor and rounding; enclosure of pi; sine and cosine are 1-Lipschitz; C117 |
| C127 | Vectors whose quantities have different units, in double arithmetic | QtyVec | relative errors through each operation, scaled by the units; C104, C106, C118 |
| C128 | Differentials in double arithmetic | DiffDouble | errors of the trip through Cartesian coordinates (C117, C118), then of one product or quotient; C106, C107 |
| C129 | Setters and getters of frames in double arithmetic | FrameDouble | induction over the calls; C126 for the last one; monotone rounding gives the direction of the drift, induction over the rounds its size |
| C130 | Coslat differentials in double arithmetic | CosLatDouble | two conversions (as C123), one product, one more conversion; the example by bounds on the sine and cosine of 1.5 |
| C131 | Coordinate conversions with angles in degrees, in double arithmetic | UnitChain | C121 for the angles as stored; turning by a wrong angle moves a direction by at most the difference; induction on the chain |
| C132 | Opening a FITS file and saving it keeps its bytes | FitsCopy | each written HDU is the entry it was read as, because place, header and object determine an entry; image and binary data are injective; induction on the chain of HDUs |
| C133 | Angular separation under coordinate conversions | SepConvert | rotations keep dot products (C53), extraction inverts column vectors (C57); in doubles chord to angle, spherical triangle inequality, C121 and C119; product-to-sum formulas for the frame classes |
| C134 | What reading does to a file of any bytes | FitsAny | case analysis of one turn at any place of any file (C30 decides whether the header ends), induction along the complete HDUs; pigeonhole on block numbers for the circle and the time limit of the headers-only mode |
| C135 | A star over the horizon, from date, place and catalogue position | Observe | composition of C88, C89 (sidereal time) with C131 (conversions by angles in degrees); the two exact rotations are the astronomical triangle (C82), and a change of the hour angle turns the star by no more than that |
| C136 | Sidereal time is a clock that gains four minutes a day | Clock | from C88 and C89 by subtracting the two polynomials; the difference of the quadratic terms is bounded over the whole range of dates |
| C137 | Exception specifications of the FITS calls | Exceptions | the errors of every function are bounded from below upwards by composition rules; headers read from streams keep the invariant that the map points to cards of 80 bytes; each member of a set is attained by a concrete text, object or file |
| C138 | Separation and position angle of places given in degrees, in double arithmetic | SepDegrees | C119 and C120 for the stored angles, together with how far storing moves the directions (chord of the columns, and the northern and eastern components) |
| C139 | Column metadata, and that scale and unit never touch the cells | Column | induction over setter calls; the setter calls of populate_column_data give the record of Model/Table; repeated look-ups in a header give the same; a relation between table objects that differ in descriptive metadata is kept by every use of a column |
| C140 | Frames built from representations and differentials, in double arithmetic | FrameBuildDouble | each multiplication by a factor has a relative error and underflow; three of them for an angle; chords of positions bound what that moves; the trip through Cartesian coordinates as in C118 and C130 |
| C141 | Sums and products of representations and differentials with different units, in double arithmetic | MixedSum | both operands are converted to Cartesian coordinates (C118), the second also to the units of the first; componentwise errors add up to a chord, and the conversion back adds its own; the product goes through C118 and C140 |
| C142 | Sums and products of coslat differentials with different units, in double arithmetic | CosLatSum | the sum as in C141, the polar angle in its range from the last conversion, the product with the cosine as in C130; a coslat second operand is a spherical one with a polar angle that is a quotient |
| C143 | Chains of coordinate conversions through galactic coordinates, in double arithmetic | GalacticChain | induction as in C121; a galactic matrix changes the square of a length by at most 1.9e-7 (quadratic form), so the distance from the axis found from the third coordinate is off by the root of that; stretching of earlier errors by 1 + 1e-7 |
| C144 | Elements of a column held in variables | Proxy | simulation of the table with proxies by arrays with notes, on top of that of C42; what has been taken has been seen, so the view a proxy points to exists |
| C145 | Conversions with angles in degrees through galactic coordinates, in double arithmetic | GalacticUnits | C143 for the angles as stored, and a second induction for the distance between the exact matrices by the stored and by the exact angles |
| C146 | A time of day through decimal hours, in double arithmetic | HourTrip | ofParts followed by ofDecimal (Model/Time) over any rounding to nearest; composition of the bounds of C52 and C90, then integrality of hours and minutes; the early minutes by finding the double below |
| C147 | Separation of places given in degrees after coordinate conversions, in double arithmetic | SepUnits | stored angles are exact doubles, so C133 applies to them; then chord distance of the stored and the exact places (C126) and the angle it subtends |
| C148 | Values of cards that other programs wrote | ForeignCard, ForeignComplex | the window that extract_value cuts out is computed for every card of the form the standard allows (Spec/ForeignCard, Lemmas/ForeignCard): with a blank before the slash trimming hides the lost byte, without one the value loses it; strings with a slash are the same case with the text before the slash as the value; the table statement goes through C86 |
| C149 | Images in files that other programs wrote | ForeignFile | a card list of the standard is a GoodHeader (C148 gives the values of the mandatory cards), so it is read (C27, C29); C34 and C85 give the object, C134 the outcome for the whole file; the layout of the standard rounds up to the least multiple of 2880 (Spec/ForeignFile), the code to the next one strictly behind, and the theorems compare the two |
| C150 | Tables in files that other programs wrote | ForeignTable | the cards of the standard (Spec/ForeignTable) give what C86 asks for (C148 for strings, C149 for the mandatory integers), so the table is accepted; C36_file and C41_file (columns and cells of the tables of any file, whose header has been asked for its name and XTENSION before) say what is in it, and the widths the code computes are those of the standard; the chain of HDUs through a file is unique, so going on inside a heap excludes ending with two HDUs; for columns of bits the sum of the widths the code computes is strictly above NAXIS1, so the last row ends behind the data (C86_binary_undefined) |
| C151 | Whole files that other programs wrote | ForeignFiles | induction over the HDUs of the standard layout (Spec/ForeignFiles): each is complete at its place (C149_image, C150) and the next begins where the standard says unless the data fill their blocks; the way through a file is unique (chain_places), so that with such data no HDU begins at the place that was passed over; the shifted image by building it from the bytes one block later (C85_primary) |
| C152 | Files for other programs | ForForeign | the file is the HDU texts one behind the other (C35_written); lengths: every filled unit has at least one byte of fill, the units of the standard the least number, so that equality of the whole lengths forces it for each unit; conversely the texts are the layout; behind an HDU without data the filler of the data unit is the blank block |
| C153 | Files of other programs opened and saved | Resaved | what C151 shows of each HDU decides the bytes it is written as (Holds): big-endian pixels are the windows of the data, one behind the other; cells are trimmed fields; the layout of the copy from C35_written; losslessness by joining the windows back to the data, losses by comparing lengths; the cards describe only one table, since two readings of them agree |
| C154 | HDUs of other programs' files by name | ForeignNames | the HDUs of a file are determined by its bytes (chain_only), so the entries of C33 are those of C151; the name of each is what C34 says of its XTENSION card; headers-only mode via C77 |
| C155 | Values in tables of other programs | ForeignCells | the cell is the trimmed field (C150), the column found is the first of that name (C43); decoding by C87_survives, C15 and C96 |
| C156 | Cards of other programs that carry no value | Commentary | the decision table of C11 for keywords of the standard; the first refused card in front of END stops the loop of read_header, placed in the file by C134 and C151; substr and find computed on the 80 bytes |
| C157 | Changing values in another program's file | Edited | invariant along the program: the open HDUs hold the HDUs with the bytes overwritten so far, in binary tables byte for byte, and every view agrees with its column; fields of a row are disjoint windows of the data; saving by C153 |
| C158 | Scaled integers in files of other programs | Physical | the pixels of C151 and the cells of C155 are big-endian two-complement numbers of the bytes; linear arithmetic |
| C159 | Statistics of images of other programs | PhysicalStats | the opened pixels are the stored numbers (C158), so the depicted numbers are their image under an increasing affine map; sum of the image, then C100 for the mean, C103 and C122 for the order statistics |
| C160 | Elements kept in variables while tables are copied, moved and destroyed | HeapProxy | invariant of the program: the variable keeps row, name, type and value, and its table keeps the view as long as nothing takes the table apart; by induction over the program. The cases of a copied, moved, destroyed or overwritten table are evaluated for every reachable heap of C109 |
| C161 | Column views kept in variables while tables are copied, moved and destroyed | HeapView | what one statement leaves of a view in a variable (table object, column number, cached rows), then induction over the program |

## What the code does not do

Properties that one would expect and that are false of the code.  The theorems state the exact behaviour; the model was not made to behave better.

FITS

* Floating point numbers keep six digits on cards and in ASCII tables; a Julian date loses its fraction (C98).  1.5D3 is refused (C96).
* Complex values do not survive a card round trip (C07, C99); a string with '/' may not (C06); a stale value is returned after re-creating a card that has been
  read (C09); set_value produces text that cannot be read back (C10).  C strings are stored without quotes in 20 columns (C92); set_value with
  a C string makes the value `true` (C111).
* Cards of other programs: with the slash of the comment directly behind the value, 100 is read as 10 and T is refused; strings with a slash lose their end, and
  a column with the unit 'm/s' makes opening the table undefined behaviour; doubled quotes stay doubled (C148).
  Their files are not opened without EXTEND, and never if the header has a multiple of 36 cards and an image follows (C149).
  Tables without EXTNAME or with K, P or Q columns make a file unreadable, and a heap behind a binary table is taken for the next HDU if it reaches into a later block; columns of two or more bits are undefined behaviour (C150).
  In files of several HDUs the one behind data that fill their blocks is lost, and an image behind a header of a multiple of 36 cards is shifted by a block (C151).
  Conversely a file the library writes is laid out as the standard says only if no header has a multiple of 36 cards and all data are non-empty and do not fill their blocks; behind an HDU without data, for instance the empty primary HDU before a table, another program finds a block of blanks instead of the next header. The fill behind images and binary tables is blanks, where the standard asks for zeros (C152).
  Opening and saving a file of another program keeps images of two and more bytes to a pixel, but sets all pixels of 8-bit images to zero, leaves out extensions that are not tables, closes the gaps between the columns of ASCII tables, and takes bytes that happen to be white space (9 to 13 and 32) off the ends of the fields of binary tables, numbers included, so that all later fields move (C153).
  Access by name uses the kind of the extension (XTENSION) as its name: the EXTNAME of a table is never found, and of several binary tables only the last can be had by name (C154).
  A number in a binary table whose first or last byte happens to be white space is read as a different number, and with two such bytes the behaviour is undefined; numbers with the exponent letter D in ASCII tables are refused (C155).
  Files with CONTINUE cards (long strings), HIERARCH cards or any other card without value indicator under a keyword other than COMMENT and HISTORY cannot be opened; the text of COMMENT and HISTORY cards that begins at byte 9, as the standard has it, loses its first two bytes in value_with_comment() (C156).
  BSCALE and BZERO of images and TSCAL and TZERO of columns are not applied: unsigned 16-bit images come out lower by 32768 (C158).
* Arrays of pairs decode with overlapping words (C17).  8-bit images read as zeros (C21).  The width of an image is not set by reading (C23).
  The mean of equal pixels need not be their value, and large integer images lose small pixels (C100, C101); a NaN is the largest pixel if it comes first (C103);
  the deviation may overflow (C102).
* A header or data unit that ends at a block boundary is followed by one more block (C24).  A header without END never finishes (C30), nor does a truncated
  file (C75); C134 lists everything that can happen to any file.  HDUs without data break the round trip or hang (C32).  In headers-only mode a wrapped length hangs (C78), and
  writing afterwards loses the data (C79).
* SIMPLE decides the class and XTENSION the name (C34); IMAGE extensions and unknown ones are dropped (C34, C35).  total_hdus counts names (C33).
  SIMPLE = F is accepted, EXTEND is required (C85).  A lone quote in XTENSION is undefined behaviour.
* Tables need EXTNAME, GCOUNT, PCOUNT, TFIELDS; data too short for the cards are undefined behaviour, not an error (C86).  A column named like a
  structural keyword makes the table unreadable (C72).  Binary cells lose white-space bytes at their ends (C38, C74, C87).
* After the table data are replaced a column view still shows the old values of the cells it has read (C44); its type is fixed by the first access (C45).  A copy of a table with a viewed column writes into the original (C109), also through elements kept in variables (C160); `p = x` for a variable of a table that was moved from or destroyed is undefined behaviour (C160), a moved one shows an empty column (C124), and two views of a column do not see each other's writes (C110).  Asking for image data with the wrong type is undefined behaviour (C85).
* Columns are never scaled: TSCAL and TZERO are only stored, and without these cards their getters read numbers nobody has set (C139).
* Reusing a reader keeps the old HDUs (C76).  get_hdu_name changes what a header is equal to; a fresh header has 2^64-1 cards (C91).

Time

* The calendar switches after 1 October 1582, so ten pairs of dates share a Julian date, and 29 February 1500 does not exist (C47).  Fractions of seconds are ignored (C80).
* Local sidereal time can be 24.0 (C89).  A decimal hour made of parts reports and prints zero parts (C52, C95).  60.000000 seconds can be printed (C95).

Coordinates

* `column[i] = column[j]` and `p = q` for elements of one type store nothing: Proxy has no copy assignment of its own, the compiler's copies the proxy. After
  `p = x` the proxy still gives the old value (C144).
* galacticToRaDec is not the inverse of raDecToGalactic, the result is up to tens of degrees off (C56, C143 for doubles).
* `==` and to_representation ignore units (C63, C83).  unit_vector has the wrong direction with mixed units (C61).  get_proper_motion ignores units (C81).
* A zero vector leaves an angle uninitialised (C59); products of angular differentials without distance lose the angles (C64).
* Conversion to a coslat differential turns vectors with x < 0 by half a turn and puts those with x = 0 on the z axis (C65); its sum reads the left operand
  wrongly and its product turns vectors (C84); a frame weights a plain motion by the cosine of the motion, not of the latitude (C93).
* The angular separation takes latitude for azimuth and longitude for polar angle: all points with right ascension 0 are 0 apart (C66), and
  converting the coordinates changes the separation (C133).
* A dot product can lose everything by cancellation (C104); a cross product need not be perpendicular to its factors (C105); the magnitude of ordinary
  vectors is 0 or infinite when squares underflow or overflow (C106), and the unit vector then zero or NaN (C107); adding vectors is not associative (C108).
* A star in the zenith may have no altitude (C113); near the poles latitudes have gaps (C114), and galactic latitudes never come within 16 arc seconds of
  the poles (C114).
* If boost::units has the degree constant assumed above, angles in degrees are stored too large by a fraction of about 2^-44, and 9 degrees are read as less than 9 (C126).
* Converting to angles and back loses what is next to the polar axis (C118), and so does multiplying a spherical differential by one (C128). With that constant, reading an angle in degrees and writing it back changes it, and may do so more than once (C129).  The separation of a point from itself may be NaN, and no separation between
  2^-52 and 2^-27 rad is ever returned (C119).
