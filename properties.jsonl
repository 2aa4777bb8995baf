{"id": "C01", "title": "Epoch time and datetime64 convert back and forth without loss", "statement": "For every datetime64 value with nanosecond resolution, epoch2dt64(dt642epoch(t)) is t again, and for every epoch time that is a whole number of nanoseconds dt642epoch(epoch2dt64(s)) is s. (The code breaks this for non-integer times before 1970.)", "quantifier": "all integer nanosecond counts, positive and negative", "why_tests_cant": "a test covers a few dates; the truncate-then-floor arithmetic only goes wrong on one side of 1970", "anchors": ["dolfyn/time.py:epoch2dt64", "dolfyn/time.py:dt642epoch"]}
{"id": "C02", "title": "MATLAB datenum conversion round trip", "statement": "Converting any datetime to a MATLAB datenum and back gives the datetime rounded to the nearest 100 microseconds, hence the identical datetime exactly when its microseconds are a multiple of 100.", "quantifier": "all dates (ordinal day >= 1) and all microseconds of the day", "why_tests_cant": "rounding and carries into the next second or day depend on the exact value", "anchors": ["dolfyn/time.py:date2matlab", "dolfyn/time.py:matlab2date"]}
{"id": "C03", "title": "Instrument clock fields decode to the encoded date part", "statement": "Every two-digit BCD byte 00..99 decodes to the number it encodes, decoding never yields more than 99 for any byte that is valid BCD, and two-digit years map onto 1990..2089 injectively while four-digit years are unchanged.", "quantifier": "all byte values and all years", "why_tests_cant": "a pivot-year or nibble-mask bug shows for a few values only", "anchors": ["dolfyn/io/nortek.py:_bcd2char", "dolfyn/time.py:_fullyear"]}
{"id": "C04", "title": "Rotating a dataset there and back restores it", "statement": "For every pair of frames in the chain beam, inst, earth, principal, rotate2(ds, B) followed by rotate2(ds, A) returns every rotated variable of a dataset that started in frame A to its original values, provided the orientation matrices are rotations and the beam matrix is invertible.", "quantifier": "all velocity values, all orientation and beam matrices, all frame pairs, all instrument families", "why_tests_cant": "needs exact algebra over every matrix; tests compare against stored files within tolerance", "anchors": ["dolfyn/rotate/api.py:rotate2", "dolfyn/rotate/base.py:_beam2inst", "dolfyn/rotate/vector.py:_inst2earth", "dolfyn/rotate/vector.py:_earth2principal", "dolfyn/rotate/signature.py:_inst2earth", "dolfyn/rotate/rdi.py:_inst2earth"]}
{"id": "C05", "title": "rotate2 ends in the requested frame or raises", "statement": "For every dataset whose coord_sys is one of beam/inst/earth/principal and every valid requested frame, rotate2 terminates, applies the single-step rotations between the two frames in order and no others, and leaves coord_sys equal to the requested frame; invalid frames raise before any data is touched. (The code breaks this for data in the ship frame asked for inst.)", "quantifier": "all frame names and all datasets", "why_tests_cant": "the loop walks a chain; wrong direction or index wrap-around loops forever or mis-rotates on some pairs only", "anchors": ["dolfyn/rotate/api.py:rotate2"]}
{"id": "C06", "title": "Frame rotations preserve speed", "statement": "Rotating three-component velocity between inst and earth (either direction) preserves its length at every sample, and rotating between earth and principal preserves the horizontal speed and leaves the vertical component alone.", "quantifier": "all velocities, all rotation matrices, all principal headings", "why_tests_cant": "numerical tests see only particular angles", "anchors": ["dolfyn/rotate/vector.py:_inst2earth", "dolfyn/rotate/vector.py:_earth2principal"]}
{"id": "C07", "title": "Euler angles and orientation matrices correspond", "statement": "euler2orient returns a proper rotation matrix (orthonormal, determinant 1) for every heading, pitch and roll, and orient2euler recovers the same heading (mod 360), pitch and roll whenever |pitch| < 90 and roll lies in (-180,180].", "quantifier": "all real angles", "why_tests_cant": "sign and quadrant errors in arctan2/arcsin appear only in some octants", "anchors": ["dolfyn/rotate/base.py:euler2orient", "dolfyn/rotate/base.py:orient2euler"]}
{"id": "C08", "title": "Instrument-reported angles give proper rotations", "statement": "The orientation matrices computed from Nortek and RDI heading/pitch/roll are proper rotations for every angle, the instrument's forward axis points along the reported heading, and the upside-down cases equal adding 180 degrees to roll.", "quantifier": "all real angles", "why_tests_cant": "sign errors are invisible at zero tilt", "anchors": ["dolfyn/rotate/vector.py:_euler2orient", "dolfyn/rotate/rdi.py:_calc_orientmat", "dolfyn/rotate/signature.py:_inst2earth"]}
{"id": "C09", "title": "set_declination rotates the earth frame by exactly the declination change", "statement": "After set_declination(d) earth-frame velocities are turned clockwise by d minus the previously set declination, whichever frame the data was in when it was set; setting twice equals setting the last value; setting the same value again changes nothing; and rotating a principal-frame dataset to earth afterwards gives the same true-earth data.", "quantifier": "all velocities, orientation matrices, declinations and frames", "why_tests_cant": "the order of pop/rotate/update matters for sequences of calls", "anchors": ["dolfyn/rotate/api.py:set_declination"]}
{"id": "C10", "title": "inst2head matrix can be set only once and is applied exactly once", "statement": "set_inst2head_rotmat rejects non-Vector instruments and a second call; after it, instrument-frame velocities equal the matrix applied once to the previous instrument-frame velocities whichever of beam, inst, earth or principal the dataset was in, and the coordinate system is unchanged.", "quantifier": "all velocities, matrices and starting frames", "why_tests_cant": "depends on the history of calls and the current frame", "anchors": ["dolfyn/rotate/api.py:set_inst2head_rotmat", "dolfyn/rotate/vector.py:_rotate_inst2head"]}
{"id": "C11", "title": "RDI beam geometry is recovered", "statement": "For every beam angle with non-zero sine and cosine, convex or concave, the beam-to-instrument matrix recovers X, Y and Z from the along-beam projections of any velocity with zero error velocity, is invertible, and swapping convex for concave only negates X and Y.", "quantifier": "all angles and velocities", "why_tests_cant": "algebraic identity over all angles", "anchors": ["dolfyn/rotate/rdi.py:_calc_beam_orientmat", "dolfyn/rotate/base.py:_beam2inst"]}
{"id": "C12", "title": "Signature four-component rotation is consistent", "statement": "When both vertical estimates agree the four-component rotation gives the same E and N as the three-component rotation and that rotation's U in both vertical rows, and earth-to-inst inverts inst-to-earth whenever the extended matrix is invertible.", "quantifier": "all orientation matrices and velocities, up and down orientation", "why_tests_cant": "algebra over all matrices", "anchors": ["dolfyn/rotate/signature.py:_inst2earth"]}
{"id": "C13", "title": "Compass/cartesian angle conversion", "statement": "convert_degrees maps any angle to the equivalent compass angle in [0,360) (or (-180,180] in tidal mode), applying it twice returns the same direction, and east/north map to 90/0.", "quantifier": "all real angles", "why_tests_cant": "modular arithmetic at the wrap points", "anchors": ["dolfyn/tools/misc.py:convert_degrees"]}
{"id": "C14", "title": "Speed and direction reconstruct the horizontal velocity", "statement": "In the earth frame, (U_mag sin U_dir, U_mag cos U_dir) equals (u, v) for every velocity and U_dir lies in [0,360); in other frames U_dir is the clockwise-positive angle from the first axis in [0,360).", "quantifier": "all velocities", "why_tests_cant": "quadrant and wrap errors", "anchors": ["dolfyn/velocity.py:Velocity.U_mag", "dolfyn/velocity.py:Velocity.U_dir"]}
{"id": "C15", "title": "Principal heading ignores flow reversal and follows rotation", "statement": "In tidal mode, reversing any subset of the velocity samples does not change calc_principal_heading (for samples not exactly zero), a rectilinear flow yields its own axis, and the result lies in [0,180] degrees.", "quantifier": "all finite samples of horizontal velocity", "why_tests_cant": "every sign pattern must give the same answer", "anchors": ["dolfyn/rotate/api.py:calc_principal_heading"]}
{"id": "C16", "title": "Quaternion orientation matrices are rotations", "statement": "quaternion2orient returns, for every non-zero quaternion, the proper rotation matrix of the inverse of that (normalised) quaternion, so that q and -q agree.", "quantifier": "all non-zero quaternions", "why_tests_cant": "algebraic identity", "anchors": ["dolfyn/rotate/base.py:quaternion2orient"]}
{"id": "C17", "title": "Binning reshapes without inventing, losing or reordering samples", "statement": "reshape(arr, n_bin) returns floor(len/n_bin) bins, bin i position j being sample i*n_bin+j; with n_pad the extra columns hold the neighbouring samples and zeros only where no sample inside the binned range exists; arrays shorter than a bin raise.", "quantifier": "all arrays, integer bin lengths and paddings up to 2*n_bin", "why_tests_cant": "off-by-one in padding shows at edges only", "anchors": ["dolfyn/binned.py:TimeBinner.reshape", "dolfyn/binned.py:TimeBinner._outshape"]}
{"id": "C18", "title": "Fractional bin lengths never read outside the data", "statement": "reshape with a non-integer n_bin takes int(n_bin) samples per bin at indices inside the array. (The code violates this: it removes at most one bin.)", "quantifier": "all array lengths and rational bin lengths", "why_tests_cant": "out-of-range indices occur for particular length/bin ratios", "anchors": ["dolfyn/binned.py:TimeBinner.reshape"]}
{"id": "C19", "title": "Bin averages, variances and standard deviations are those of the bin's samples", "statement": "mean/var/std over bins equal the arithmetic mean, population variance and its root of exactly the samples of each bin, the variance is non-negative, zero only for constant bins, unchanged by adding a constant and scales quadratically; the average of equal-size bin means is the overall mean.", "quantifier": "all arrays (with or without missing samples) and integer bin lengths", "why_tests_cant": "statistical identities over all inputs", "anchors": ["dolfyn/binned.py:TimeBinner.mean", "dolfyn/binned.py:TimeBinner.var", "dolfyn/binned.py:TimeBinner.std"]}
{"id": "C20", "title": "Detrending removes exactly the least-squares line", "statement": "For gap-free data of length at least two, detrend returns the residual of the least-squares line: zero mean, zero slope, affine signals map to zero, adding any line does not change the result, detrending twice equals once, and no other line gives a smaller sum of squares. (With NaNs the slope is computed with uncentred abscissae and the property fails.)", "quantifier": "all arrays", "why_tests_cant": "optimality over every line", "anchors": ["dolfyn/tools/misc.py:detrend", "dolfyn/binned.py:TimeBinner.detrend"]}
{"id": "C21", "title": "Bins handed to the spectral code never exceed the bin length", "statement": "After constructing a TimeBinner, n_fft and n_fft_coh never exceed n_bin whatever was passed, and per-call n_fft overrides are clamped to n_bin likewise.", "quantifier": "all constructor and call arguments", "why_tests_cant": "argument combinations", "anchors": ["dolfyn/binned.py:TimeBinner.__init__", "dolfyn/binned.py:TimeBinner._parse_nfft"]}
{"id": "C22", "title": "A per-call bin length is honoured by spectral estimates", "statement": "calc_psd/calc_csd called with an n_bin override give the same result as a binner constructed with that bin length. (The code ignores the override when cutting the data.)", "quantifier": "all arrays and overrides", "why_tests_cant": "needs comparison of all shapes", "anchors": ["dolfyn/binned.py:TimeBinner.calc_psd_base", "dolfyn/binned.py:TimeBinner.calc_csd_base"]}
{"id": "C23", "title": "FFT segments stay inside the data, overlap by at least half and are averaged with the right count", "statement": "For every record length and FFT length the segments used by the spectral estimate lie inside the record, consecutive segments overlap by at least 50%, and the sum over segments is divided by the number of segments summed. (The code divides by a smaller number for some lengths.)", "quantifier": "all lengths, FFT lengths and explicit step/ensemble choices", "why_tests_cant": "integer-division corner cases for particular lengths", "anchors": ["dolfyn/tools/psd.py:stepsize", "dolfyn/tools/psd.py:cpsd"]}
{"id": "C24", "title": "Spectral frequencies", "statement": "psd_freq returns k*fs/nfft for k=1..floor(nfft/2): strictly increasing, positive, at most the Nyquist frequency, reaching it exactly for even nfft.", "quantifier": "all fs>0 and nfft", "why_tests_cant": "parity cases", "anchors": ["dolfyn/tools/psd.py:psd_freq", "dolfyn/binned.py:TimeBinner.calc_freq"]}
{"id": "C25", "title": "Power spectra are non-negative, scale quadratically and ignore linear trends", "statement": "psd of any record is non-negative at every frequency, multiplying the record by c multiplies it by c squared, adding any straight line to the record does not change it, and psd(a) equals cpsd(a,a).", "quantifier": "all real records, windows and lengths", "why_tests_cant": "holds for all signals", "anchors": ["dolfyn/tools/psd.py:psd", "dolfyn/tools/psd.py:cpsd"]}
{"id": "C26", "title": "Integrating a power spectrum gives the variance", "statement": "For a single segment with the boxcar window and odd FFT length, the sum of psd times frequency spacing equals the mean square of the detrended record exactly; for even length it exceeds it by exactly half the Nyquist bin's contribution.", "quantifier": "all real records and lengths", "why_tests_cant": "Parseval identity over all signals", "anchors": ["dolfyn/tools/psd.py:psd", "dolfyn/tools/psd.py:psd_freq"]}
{"id": "C27", "title": "Coherence lies between 0 and 1", "statement": "Without debias, coherence of any two records of equal length lies in [0,1] and coherence(a,a) is 1 wherever the spectrum is non-zero. (The code returns values above 1 for lengths where the segment count is mis-stated.)", "quantifier": "all record pairs and FFT lengths", "why_tests_cant": "Cauchy-Schwarz over all signals", "anchors": ["dolfyn/tools/psd.py:coherence", "dolfyn/tools/psd.py:cpsd_quasisync"]}
{"id": "C28", "title": "Phase angle is averaged over the segments of both signals", "statement": "phase_angle(a,b) averages, over all segments, the unit phasor of the cross spectrum of that segment. (The code uses `a` for both signals after the first segment.)", "quantifier": "all record pairs", "why_tests_cant": "the bug is silent for single-segment records", "anchors": ["dolfyn/tools/psd.py:phase_angle"]}
{"id": "C29", "title": "Cross spectra are Hermitian", "statement": "cpsd(b,a) is the complex conjugate of cpsd(a,b) at every frequency and cpsd is linear in its first argument.", "quantifier": "all records, windows and lengths", "why_tests_cant": "holds for all signals", "anchors": ["dolfyn/tools/psd.py:cpsd"]}
{"id": "C30", "title": "Noise-corrected spectra stay non-negative", "statement": "With a noise value given, the returned spectrum has no negative entries, entries that stay positive equal the uncorrected value minus noise^2/(fs/2), and all others are set to one hundredth of the smallest absolute corrected value.", "quantifier": "all spectra and noise levels", "why_tests_cant": "every pattern of entries below the noise floor", "anchors": ["dolfyn/binned.py:TimeBinner.calc_psd_base"]}
{"id": "C31", "title": "Iterating 1-D slices visits each slice exactly once", "statement": "slice1d_along_axis yields, for every shape with at least two dimensions and every axis, each combination of the other indices exactly once, in row-major order, and stops.", "quantifier": "all shapes and axes", "why_tests_cant": "odometer carries over any number of dimensions", "anchors": ["dolfyn/tools/misc.py:slice1d_along_axis"]}
{"id": "C32", "title": "Contiguous segments are found exactly", "statement": "group(mask) returns the maximal runs of True of at least min_length, in order. (The code returns wrong starts for masks that begin with True and contain another run.)", "quantifier": "all boolean arrays", "why_tests_cant": "depends on where runs begin and end", "anchors": ["dolfyn/tools/misc.py:group"]}
{"id": "C33", "title": "Gap filling changes only gaps within the limit", "statement": "fillgaps leaves every valid sample unchanged, fills each interior NaN run of length at most maxgap with the straight line between its neighbours, leaves longer runs and (without extrapolation) leading/trailing NaNs alone, and with extrapolation repeats the end values within the limit; interpgaps does the same with the given abscissae.", "quantifier": "all arrays with NaNs at any positions, all limits", "why_tests_cant": "every NaN pattern", "anchors": ["dolfyn/tools/misc.py:fillgaps", "dolfyn/tools/misc.py:interpgaps"]}
{"id": "C34", "title": "Timestamps are completed without gaps", "statement": "_fill_time_gaps returns no NaN whenever at least one timestamp is valid, keeps all valid timestamps, is exact for a uniformly sampled clock, and preserves monotonicity.", "quantifier": "all NaN patterns", "why_tests_cant": "every pattern of missing times", "anchors": ["dolfyn/time.py:_fill_time_gaps"]}
{"id": "C35", "title": "Spike cleaning only touches flagged samples", "statement": "clean_fill leaves all unflagged samples unchanged, and on return no flagged sample keeps its spike value.", "quantifier": "all arrays and masks", "why_tests_cant": "every mask", "anchors": ["dolfyn/adv/clean.py:clean_fill", "dolfyn/adv/clean.py:_interp_nan"]}
{"id": "C36", "title": "Range and spike masks flag exactly the offending samples", "statement": "range_limit flags exactly the samples not strictly inside the given range (NaN included), and spike_thresh flags exactly the samples that differ from the preceding sample by more than the threshold. (The first sample has no predecessor; the code compares it with zero.)", "quantifier": "all arrays and thresholds", "why_tests_cant": "boundary cases", "anchors": ["dolfyn/adv/clean.py:range_limit", "dolfyn/adv/clean.py:spike_thresh"]}
{"id": "C37", "title": "Phase-space despiking terminates and never hits its loop limit", "statement": "For every non-empty record GN2002 stops after at most two passes, never raises the loop-limit exception, and returns exactly the samples flagged by one phase-space threshold pass.", "quantifier": "all inputs and all outcomes of the threshold test", "why_tests_cant": "while-loop behaviour for any data", "anchors": ["dolfyn/adv/clean.py:GN2002"]}
{"id": "C38", "title": "Threshold masks for profilers blank exactly the bad cells", "statement": "val_exceeds_thresh and correlation_filter set to NaN exactly the cells beyond the threshold and change no other velocity cell; applying them twice changes nothing more.", "quantifier": "all data and thresholds", "why_tests_cant": "idempotence over all values", "anchors": ["dolfyn/adp/clean.py:val_exceeds_thresh", "dolfyn/adp/clean.py:correlation_filter"]}
{"id": "C39", "title": "Cells beyond the surface are blanked", "statement": "nan_beyond_surface blanks exactly the cells farther than depth*cos(beam angle) minus one cell size for every profile and leaves the rest. (A user-supplied beam angle in degrees is used as radians.)", "quantifier": "all depths, ranges and angles", "why_tests_cant": "unit error is invisible with the attribute's default", "anchors": ["dolfyn/adp/clean.py:nan_beyond_surface"]}
{"id": "C40", "title": "Depth from pressure", "statement": "find_surface_from_P gives depth = pressure / (9.81 * density) with the documented density formula, strictly increasing with pressure, and adds the instrument height exactly once; range offsets add up.", "quantifier": "all pressures, temperatures and salinities", "why_tests_cant": "formula over all values", "anchors": ["dolfyn/adp/clean.py:find_surface_from_P", "dolfyn/adp/clean.py:set_range_offset"]}
{"id": "C41", "title": "File type detection is a function of the first bytes", "statement": "Every byte string is classified by its first bytes: the documented signatures map to their reader and everything else to no reader, so read() never runs a parser on a file of another make.", "quantifier": "all byte strings", "why_tests_cant": "prefix overlaps", "anchors": ["dolfyn/io/base.py:_get_filetype", "dolfyn/io/api.py:read"]}
{"id": "C42", "title": "Output file names keep the requested extension", "statement": "The extension check returns a name with exactly the requested extension or raises, never doubles the extension, and is idempotent.", "quantifier": "all file names", "why_tests_cant": "dots anywhere in the path", "anchors": ["dolfyn/io/api.py:_check_file_ext"]}
{"id": "C43", "title": "Corrupt Nortek records are rejected", "statement": "With checksum verification on, a record whose stored checksum differs from the sum of its words is rejected and a record whose checksum matches is accepted. (The code does the opposite.)", "quantifier": "all records", "why_tests_cant": "must hold for every byte pattern", "anchors": ["dolfyn/io/nortek.py:_NortekReader.checksum"]}
{"id": "C44", "title": "Resynchronisation after bad Nortek data", "statement": "The search for the next record stops at the first word-aligned sync byte, when checksum matching is on only one preceded by a word equal to the running checksum of all words skipped, and reports failure exactly when there is none.", "quantifier": "all byte streams", "why_tests_cant": "arbitrary garbage between records", "anchors": ["dolfyn/io/nortek.py:_NortekReader.findnext"]}
{"id": "C45", "title": "AD2CP records are decoded field by field and corruption is detected", "statement": "A record packed according to its field list (each field holding at least one element) decodes to the same values with the declared scaling; changing any single 16-bit word of a record that passes makes the checksum verification fail (the file reader itself never asks for verification).", "quantifier": "all field lists, values and single-word corruptions", "why_tests_cant": "all byte patterns", "anchors": ["dolfyn/io/nortek2_defs.py:_DataDef.read", "dolfyn/io/nortek2_defs.py:_LinFunc"]}
{"id": "C46", "title": "The AD2CP index lists every data record at its true position", "statement": "For every file made of complete records with sizes below 32768, the index contains exactly one entry per data record of the indexed types, in file order, with its byte position and type, and its ensemble counter never decreases and grows by at most one. (Sizes of 32768 or more are read as negative.)", "quantifier": "all sequences of records", "why_tests_cant": "arbitrary record sequences", "anchors": ["dolfyn/io/nortek2_lib.py:_create_index"]}
{"id": "C47", "title": "Reading an ensemble range equals slicing the full read", "statement": "For an AD2CP file, reading ensembles [a,b) returns the same samples as reading everything and taking [a,b).", "quantifier": "all files and all ranges", "why_tests_cant": "history of counters over arbitrary record order", "anchors": ["dolfyn/io/nortek2.py:_Ad2cpReader.readfile", "dolfyn/io/nortek2.py:_Ad2cpReader._advance_ens_count"]}
{"id": "C48", "title": "Bit fields are decoded without overlap or loss", "statement": "Beam/cell/coordinate codes, head configuration, status words and generic bit ranges decode to the fields that were packed, for every field value, and re-packing gives the original word.", "quantifier": "all 16/32-bit words", "why_tests_cant": "all words", "anchors": ["dolfyn/io/nortek2_lib.py:_beams_cy_int2dict", "dolfyn/io/nortek2_lib.py:_BitIndexer", "dolfyn/io/nortek2_lib.py:_headconfig_int2dict", "dolfyn/io/nortek2_lib.py:_status2data"]}
{"id": "C49", "title": "Collapsing configuration vectors", "statement": "Collapsing a configuration vector to one value returns an element of the vector, the common value when (ignoring excluded values) all agree, otherwise the most frequent value.", "quantifier": "all vectors", "why_tests_cant": "ties and exclusions", "anchors": ["dolfyn/io/nortek2_lib.py:_collapse", "dolfyn/io/nortek2_lib.py:_isuniform"]}
{"id": "C50", "title": "The RDI reader stays in step with the file", "statement": "Every data-type reader consumes exactly the number of bytes it accounts for, so after any ensemble the file position is exactly the start of the next ensemble. (Bottom-track blocks in WinRiver files break this by 12 bytes.)", "quantifier": "all ensembles and configurations", "why_tests_cant": "byte accounting across all code paths", "anchors": ["dolfyn/io/rdi.py:_RDIReader.read_buffer", "dolfyn/io/rdi.py:_RDIReader.read_dat", "dolfyn/io/rdi.py:_RDIReader.read_bottom"]}
{"id": "C51", "title": "Every complete RDI ensemble is read", "statement": "A file consisting of n complete ensembles yields n ensembles. (The header check demands a following header, so the last ensemble is never accepted.)", "quantifier": "all files", "why_tests_cant": "depends on the end of the file", "anchors": ["dolfyn/io/rdi.py:_RDIReader.checkheader", "dolfyn/io/rdi.py:_RDIReader.search_buffer"]}
{"id": "C52", "title": "GPS duplicates are removed consistently", "statement": "After duplicate removal GPS times are strictly increasing without NaN, every distinct valid time survives once, and each surviving sample's other GPS fields come from the first record with that time.", "quantifier": "all GPS series", "why_tests_cant": "all duplicate/NaN patterns", "anchors": ["dolfyn/io/rdi.py:_remove_gps_duplicates"]}
{"id": "C53", "title": "User-supplied declination is applied to RDI data", "statement": "When userdata gives a declination, the heading and orientation end up relative to that declination whatever the instrument software had applied. (The code applies no rotation when the software value is non-zero.)", "quantifier": "all software and user declinations", "why_tests_cant": "needs both values non-zero and different", "anchors": ["dolfyn/io/rdi.py:_set_rdi_declination"]}
{"id": "C54", "title": "Trailing missing samples are trimmed and nothing else", "statement": "After trimming, every variable loses exactly the trailing samples at which data is missing. (The code counts all missing samples, so an interior gap removes good samples at the end.)", "quantifier": "all NaN patterns", "why_tests_cant": "interior gaps", "anchors": ["dolfyn/io/base.py:_handle_nan"]}
{"id": "C55", "title": "Saving and loading keeps complex variables", "statement": "A dataset with any number of complex variables saved and loaded again has the same complex variables with the same real and imaginary parts. (Fails when the first of several complex variables has a one-letter name.)", "quantifier": "all datasets", "why_tests_cant": "list-vs-string attribute collapsing", "anchors": ["dolfyn/io/api.py:save", "dolfyn/io/api.py:load"]}
{"id": "C56", "title": "Averaging of bursts of angles", "statement": "The angle average of equal angles is that angle modulo 360 and is invariant under adding 360 to any input; headings stay in [0,360). (The code returns negative headings.)", "quantifier": "all angle lists", "why_tests_cant": "wrap-around", "anchors": ["dolfyn/io/nortek2_lib.py:_reduce_by_average_angle"]}
{"id": "C57", "title": "Turbulent kinetic energy and stresses obey Cauchy-Schwarz", "statement": "Without noise correction tke components are non-negative, and each stress squared is at most the product of the two matching variances in the same bin.", "quantifier": "all velocity records", "why_tests_cant": "inequality over all data", "anchors": ["dolfyn/velocity.py:VelBinner.calc_tke", "dolfyn/adv/turbulence.py:ADVBinner.calc_stress"]}
{"id": "C58", "title": "Vertical shear is exact for linear profiles in both orientations", "statement": "All three difference schemes return the exact slope of any linear profile on a uniform grid; for a downward-facing instrument the sign flips. (calc_dudz raises for downward-facing data.)", "quantifier": "all linear profiles", "why_tests_cant": "orientation-dependent code path", "anchors": ["dolfyn/adp/turbulence.py:ADPBinner.calc_dudz", "dolfyn/adp/turbulence.py:_diffz_centered"]}
{"id": "C59", "title": "Four-beam stresses recover u'w' and v'w'", "statement": "For any turbulence record and beam angle, the variance-method formulas return the true covariances of the velocity components when the beams see the same flow.", "quantifier": "all records and angles", "why_tests_cant": "identity over all records", "anchors": ["dolfyn/adp/turbulence.py:ADPBinner.calc_stress_4beam"]}
{"id": "C60", "title": "Five-beam turbulence at zero tilt recovers the velocity variances and stresses", "statement": "At zero pitch and roll the five-beam formulas return the variances of u, v, w and the covariances with w. (vpvp and wpwp are wrong in the code.)", "quantifier": "all records and angles", "why_tests_cant": "formula errors hide at particular data", "anchors": ["dolfyn/adp/turbulence.py:ADPBinner.calc_stress_5beam"]}
{"id": "C61", "title": "Dissipation from an inertial-subrange spectrum", "statement": "Given an exact -5/3 spectrum, LT83 returns the dissipation rate that generated it, in Hz or rad/s units, for every mean speed.", "quantifier": "all epsilon, speeds, frequencies", "why_tests_cant": "identity with real powers", "anchors": ["dolfyn/adv/turbulence.py:ADVBinner.calc_epsilon_LT83", "dolfyn/adp/turbulence.py:ADPBinner.calc_dissipation_LT83"]}
{"id": "C62", "title": "Structure-function dissipation fit", "statement": "Given an exact r^(2/3) structure function the ADCP structure-function method returns the generating dissipation. (The code fits against r^2/3.)", "quantifier": "all epsilon and separations", "why_tests_cant": "operator precedence bug hidden by tolerance", "anchors": ["dolfyn/adp/turbulence.py:ADPBinner.calc_dissipation_SF"]}
{"id": "C63", "title": "Rotational motion correction is the cross product with the lever arm", "statement": "The rotation-induced velocity equals omega x r for the lever arm r of the probe from the IMU, is orthogonal to both, and vanishes for zero rotation or zero lever arm.", "quantifier": "all vectors", "why_tests_cant": "algebraic identity", "anchors": ["dolfyn/adv/motion.py:CalcMotion.calc_velrot"]}
{"id": "C64", "title": "Motion correction adds the two motion terms exactly once", "statement": "correct_motion returns measured velocity plus rotational plus translational motion, the same for either output frame and for input in any frame, and corrected data is refused.", "quantifier": "all datasets and histories", "why_tests_cant": "depends on history of calls", "anchors": ["dolfyn/adv/motion.py:correct_motion"]}
{"id": "C65", "title": "Burst duty cycles are detected", "statement": "A record whose burst interval is not the declared interval is rejected. (The condition in the code can never be true.)", "quantifier": "all time vectors", "why_tests_cant": "unsatisfiable condition", "anchors": ["dolfyn/adv/motion.py:CalcMotion._check_duty_cycle"]}
{"id": "C66", "title": "Integral length scale uses the first crossing", "statement": "calc_L_int uses the first lag at which the autocorrelation falls to 1/e or below, zero if it never does.", "quantifier": "all autocorrelation sequences", "why_tests_cant": "argmin semantics on booleans", "anchors": ["dolfyn/adv/turbulence.py:ADVBinner.calc_L_int"]}
{"id": "C67", "title": "Averaged datasets carry consistent settings", "statement": "Adding a result to an output dataset succeeds exactly when every fs/n_bin/n_fft/description and raw attribute agrees with what is stored, and then all are stored; a disagreement raises.", "quantifier": "all attribute dictionaries", "why_tests_cant": "all key/value combinations and call sequences", "anchors": ["dolfyn/binned.py:TimeBinner._check_ds"]}
{"id": "C68", "title": "Missing orientation at the end of a record", "statement": "When the last heading, pitch and roll of a Nortek record are all missing, every sample after the last complete one gets that sample's orientation matrix, earlier samples are unaffected and no sample is added or lost; if no sample is complete the computation fails.", "quantifier": "all sequences of heading/pitch/roll with any pattern of missing values", "why_tests_cant": "any position of the last complete sample must work", "anchors": ["dolfyn/rotate/vector.py:_calc_omat"]}
{"id": "C69", "title": "Filling with ensemble means", "statement": "fill_nan_ensemble_mean keeps every sample that is present and unflagged, and replaces every flagged or missing sample by the mean of the good samples of its window; the shorter window at the end of the record uses its own mean; a window without good samples stays missing.", "quantifier": "all record lengths, window lengths of at least one sample and at most the record length, masks and NaN patterns", "why_tests_cant": "every alignment of the partial window must work", "anchors": ["dolfyn/adv/clean.py:fill_nan_ensemble_mean"]}
{"id": "C70", "title": "Surface detection from echo amplitude", "statement": "find_surface reports for each profile the median of the candidate ranges of all beams (strongest echo; last increase) and reports no depth exactly when the echo does not rise by the threshold beyond its peak. (The code loops over cells instead of profiles and cuts the beam axis instead of the range axis, so depths are lost or untested, and short records raise.)", "quantifier": "all amplitudes, numbers of beams, cells and profiles", "why_tests_cant": "depends on the relation between three array sizes", "anchors": ["dolfyn/adp/clean.py:find_surface"]}
{"id": "C71", "title": "Phase-space threshold", "statement": "A sample is flagged by the despiking test exactly when its value and its two differences, as a point in space, lie outside the ellipsoid of Goring and Nikora; the half axes solve their equations 10 and 11; the only failure is the singular case at 45 degrees.", "quantifier": "all real values, angles and axes", "why_tests_cant": "spherical-coordinate formulas have quadrant cases tests sample only sparsely", "anchors": ["dolfyn/adv/clean.py:_phaseSpaceThresh", "dolfyn/adv/clean.py:_calcab"]}
{"id": "C72", "title": "Median filter blanks wide gaps", "statement": "medfiltnan blanks the samples around which more than the permitted number of samples is missing. (The code compares the number with a fraction, so a permitted gap of one sample or more never blanks anything.)", "quantifier": "all records, odd kernels and thresholds", "why_tests_cant": "needs the bound on the window count", "anchors": ["dolfyn/tools/misc.py:medfiltnan"]}
{"id": "C73", "title": "Turbulence intensity of each bin", "statement": "calc_ti returns, for every bin, the noise-corrected standard deviation of the bin's samples divided by their mean, no value where the variance is below the noise variance, and no value below the requested speed threshold. (The threshold has no effect in the code.)", "quantifier": "all complete records, bin sizes, noise levels and thresholds", "why_tests_cant": "A test fixes one record and the default threshold.", "anchors": ["dolfyn/velocity.py:923-969"]}
{"id": "C74", "title": "Doppler noise level", "statement": "For white noise the estimated noise level never exceeds the true standard deviation, is at least sqrt(pct_fN) times it, and is the same for spectra in Hz and rad/s; the documented value N*fc is a strict lower bound of its square.", "quantifier": "all sampling rates, noise levels, cutoffs and frequency grids", "why_tests_cant": "Tests compare one recorded spectrum.", "anchors": ["dolfyn/adp/turbulence.py:175-245", "dolfyn/adv/turbulence.py:170-239"]}
{"id": "C75", "title": "Slope of the turbulence cascade", "statement": "An exact power-law spectrum A f^m gives slope m and intercept log10 A for every exponent, and multiplying a spectrum by a constant does not change the slope.", "quantifier": "all power laws, frequency grids and ranges with two distinct frequencies", "why_tests_cant": "Tests use one recorded spectrum and an approximate slope.", "anchors": ["dolfyn/adv/turbulence.py:241-299", "dolfyn/adp/turbulence.py:526-592"]}
{"id": "C76", "title": "Friction velocity from a linear stress profile", "statement": "For a stress profile u*^2 (1 - z/H) of either sign calc_ustar_fit returns u*, for any choice of depth cells below the surface.", "quantifier": "all depths, friction velocities and cell selections", "why_tests_cant": "Tests use one recorded profile.", "anchors": ["dolfyn/adp/turbulence.py:811-857"]}
{"id": "C77", "title": "Motion correction at separate probes", "statement": "With separate_probes the head velocity is assembled from the along-beam component of each receiver's own velocity. (The code contracts the probe axis instead of the component axis.)", "quantifier": "all beam matrices, head rotations and rotation rates", "why_tests_cant": "Tests compare with stored output of the same code.", "anchors": ["dolfyn/adv/motion.py:253-284", "dolfyn/adv/motion.py:446-462"]}
{"id": "C78", "title": "Gravity and rest do not enter the motion correction", "statement": "Adding any constant earth-frame acceleration to the accelerometer signal leaves the corrected velocity unchanged, and an instrument at rest is not corrected, for every low-pass filter of unit gain.", "quantifier": "all filters of unit gain at zero frequency, all records, duty cycled or not", "why_tests_cant": "Tests use one recorded data set.", "anchors": ["dolfyn/adv/motion.py:74-194"]}
{"id": "C79", "title": "Nortek records are stored at the right sample", "statement": "For every file made of complete records, the reader visits each record once and in order; a velocity record preceded by k velocity records is sample k, system data belongs to the next sample and IMU data to the last one; the reader terminates on every byte string.", "quantifier": "all record sequences, all byte strings", "why_tests_cant": "A few recorded files exercise a few orders of records; the claim is about every interleaving.", "anchors": ["dolfyn/io/nortek.py:380-440", "dolfyn/io/nortek.py:659-744", "dolfyn/io/nortek.py:897-1009"]}
{"id": "C80", "title": "Reading the first pings gives a prefix of the whole", "statement": "Reading a limited number of pings of a Nortek file stores the same records, in the same places, as the beginning of reading the whole file.", "quantifier": "all files and limits", "why_tests_cant": "Tests read one limit of one file.", "anchors": ["dolfyn/io/nortek.py:412-440"]}
{"id": "C81", "title": "AWAC wave records can be read", "statement": "A complete wave record or wave header in an AWAC file is decoded. (The code raises struct.error or KeyError on every such record.)", "quantifier": "all wave records", "why_tests_cant": "No test file contains wave records.", "anchors": ["dolfyn/io/nortek.py:1099-1168", "dolfyn/io/nortek_defs.py:345-480"]}
{"id": "C82", "title": "Nortek dates and flag words are decoded digit by digit and bit by bit", "statement": "A two-digit number stored as binary-coded decimal decodes to itself, invalid bytes stay in a known range; a flag word is expanded to its bits.", "quantifier": "all bytes and words", "why_tests_cant": "Tests see a handful of dates.", "anchors": ["dolfyn/io/nortek.py:116-134", "dolfyn/io/nortek.py:625-634"]}
{"id": "C83", "title": "IMU axes are converted by a proper rotation", "statement": "Converting the IMU data of a Vector to the axes of the instrument preserves lengths, angles and handedness, keeps the orientation matrix a rotation and keeps it consistent with the vectors.", "quantifier": "all vectors and orientation matrices", "why_tests_cant": "One recorded orientation cannot show a mirrored axis in every direction.", "anchors": ["dolfyn/io/nortek.py:1011-1036"]}
{"id": "C84", "title": "Vector sample times advance by the sampling interval", "statement": "The times assigned to the samples of a burst advance by 1/fs and agree with the system records. (With fewer than three system records in a burst the code divides by 86400 as if times were days.)", "quantifier": "all bursts and system records", "why_tests_cant": "Test files have long bursts.", "anchors": ["dolfyn/io/nortek.py:845-895"]}
{"id": "C85", "title": "The up/down flag follows the status bits", "statement": "A Vector sample that carries a status record is reported as facing down exactly if its status bit is set. (After a change from down to up the first record is still reported as down.)", "quantifier": "all bit sequences", "why_tests_cant": "Instruments in test data do not turn over.", "anchors": ["dolfyn/io/nortek.py:885-893"]}
{"id": "C86", "title": "Pressure is combined from its parts without loss", "statement": "The pressure reported by a Vector determines both stored parts.", "quantifier": "all parts", "why_tests_cant": "Tests see one pressure range.", "anchors": ["dolfyn/io/nortek.py:766-775"]}
{"id": "C87", "title": "The index and the data reader agree on every AD2CP record", "statement": "For every data record, the configuration word, beam/cell word and ensemble counter stored in the index are those the data reader decodes from the same record, and the record size follows from the configuration word.", "quantifier": "all records, configurations, beams and cells", "why_tests_cant": "Offsets are hard-coded twice (once for the index, once in the field lists); tests only see the configurations of the sample files.", "anchors": ["dolfyn/io/nortek2_lib.py:_create_index", "dolfyn/io/nortek2_defs.py:_calc_burst_struct", "dolfyn/io/nortek2_defs.py:_calc_bt_struct"]}
{"id": "C88", "title": "Ensembles of an AD2CP file", "statement": "The number of ensembles of a file is the number of different ensemble numbers, and ensemble n starts at the first record with number n, whatever record types the file mixes.", "quantifier": "all indexes", "why_tests_cant": "Sample files have every record type in every ensemble, or are compared with stored output only.", "anchors": ["dolfyn/io/nortek2_lib.py:_boolarray_firstensemble_ping", "dolfyn/io/nortek2.py:_Ad2cpReader.__init__", "dolfyn/io/nortek2_lib.py:_create_index"]}
{"id": "C89", "title": "RDI ensemble numbers identify the ensembles", "statement": "The ensemble number of a loaded RDI dataset is the number stored in the file (low word plus 65536 times the high byte), so consecutive ensembles have distinct, increasing numbers. (The code multiplies by 65535, so two ensembles share a number at each overflow.)", "quantifier": "all ensemble numbers", "why_tests_cant": "needs a file with more than 65535 ensembles", "anchors": ["dolfyn/io/rdi.py:_RDIReader.read_var"]}
{"id": "C90", "title": "Reading an RDI file without a count reads all of it", "statement": "Reading an RDI file without asking for a number of ensembles gives as many ensembles as asking for a very large number. (The reader sizes its arrays from an estimate, file size / (0.995 mean length + 2), which is too small for ensembles under 400 bytes; the remaining ensembles are silently dropped.)", "quantifier": "all regular files", "why_tests_cant": "depends on file length and ensemble size together", "anchors": ["dolfyn/io/rdi.py:_RDIReader.__init__", "dolfyn/io/rdi.py:_RDIReader.code_spacing"]}
{"id": "C91", "title": "Cropping an AD2CP file keeps whole records", "statement": "Cropping an AD2CP file to a range of ensembles gives a file with the header records followed by exactly the records of these ensembles, unchanged, and indexing the new file lists exactly them; every ensemble of the file, including the last, can be kept. (The code looks up the start of the ensemble behind the range, so the last ensemble can never be kept.)", "quantifier": "all files of whole records and all ranges", "why_tests_cant": "needs byte-level comparison of arbitrary files; the test crops one file once", "anchors": ["dolfyn/io/nortek2_lib.py:crop_ensembles"]}
{"id": "C92", "title": "AD2CP clock readings become exact times", "statement": "Each legal clock reading of an AD2CP record gives exactly that instant (to the 0.1 ms of the clock) as time coordinate, later readings give later times across month, year and leap-day boundaries, and an illegal reading gives a missing time. (The first instant of 1970 is taken for missing.)", "quantifier": "all clock readings from 1970 on", "why_tests_cant": "dates in sample files do not cover month, leap-year and century boundaries", "anchors": ["dolfyn/io/nortek2_lib.py:_calc_time", "dolfyn/io/nortek2.py:_Ad2cpReader.readfile", "dolfyn/time.py:date2epoch", "dolfyn/time.py:epoch2dt64"]}
{"id": "C93", "title": "Skipped pings do not shift ensemble numbers", "statement": "When single records are missing in an AD2CP file (the counter of that record type running on), every record is still assigned to the ensemble it was measured in; a complete file is left alone. (False when a type is missing in two ensembles in a row, in the first ensemble, or in dual-profile files with exactly three groups of a type.)", "quantifier": "all indexes: any number of ensembles, any set of record types, any pattern of isolated skips", "why_tests_cant": "skips are rare and their effect depends on which record types surround them", "anchors": ["dolfyn/io/nortek2_lib.py:_check_index"]}
{"id": "C94", "title": "Autocovariance is that of the bin", "statement": "The autocovariance of a bin has the variance over the samples of the lag's window at lag 0, does not change when a constant is added to the series, and at lag k multiplies samples that are k apart, for every bin length and for the bin length asked for. (False: bin lengths that leave 2 or 3 modulo 4, and bins of five samples, always raise, the n_bin argument is ignored, and a single-bin series is treated differently from the first bin of a longer one.)", "quantifier": "all series, bin lengths and lags", "why_tests_cant": "exact identities for arbitrary series and bin lengths; sample tests use one bin length", "anchors": ["dolfyn/velocity.py:VelBinner.calc_acov"]}
{"id": "C95", "title": "Cross-covariance compares the series at the stated lag", "statement": "Entry k of the cross-covariance of two series is the sum of products of samples of both that are apart by the lag in the label of that entry; the normalised version lies between -1 and 1. (False: labels start at zero while the entries run over negative and positive lags.)", "quantifier": "all pairs of series, bin lengths and lag counts", "why_tests_cant": "exact identities for arbitrary series; the sign and origin of the lag axis cannot be seen from a plot of one symmetric sample", "anchors": ["dolfyn/velocity.py:VelBinner.calc_xcov"]}
{"id": "C96", "title": "Coherences and cross spectra compare the same span of time", "statement": "Bin r of a binned coherence, phase angle or cross spectrum of two series compares the samples of both that belong to bin r, also when the series are sampled at different rates, and the result has the requested number of frequencies. (False: cross spectra of series with different rates compare bins of equal sample count and ignore the end of the faster series; a coherence with its own FFT size raises.)", "quantifier": "all pairs of series, integer rate ratios, bin and FFT sizes", "why_tests_cant": "tests use two series of the same rate and the default FFT size", "anchors": ["dolfyn/velocity.py:VelBinner.calc_coh", "dolfyn/velocity.py:VelBinner.calc_phase_angle", "dolfyn/binned.py:TimeBinner.calc_csd_base"]}
{"id": "C97", "title": "Every variable read gets its own time axis, dimensions and units", "statement": "In the dataset a reader returns, every variable read from the file is present with its values; scalars and profiles lie on the time and range axes of their record type, whatever the order in which they were read; tagged variables get the units of the quantity; and every dimension has one size. (False: two-dimensional fifth-beam profiles depend on the variable read before, and data of instruments with one or two beams cannot be put into a dataset.)", "quantifier": "all dictionaries of variables, names and shapes", "why_tests_cant": "depends on substring matches of names and on variables left over from earlier iterations; sample files cover a few name/shape combinations", "anchors": ["dolfyn/io/base.py:_create_dataset"]}
{"id": "C98", "title": "Averaging a dataset averages every measured variable on its own time axis", "statement": "`do_avg` returns, for every measured variable, its dimensions, the bin means of its own time axis and the mean of every bin of every component; `do_var` adds the variances under the suffixed names and leaves the averages alone; variables without a time axis are carried over, and a record type with too few samples does not prevent the others from being averaged. (False: matrices are silently dropped, and one record type shorter than a bin makes the whole call raise.)", "quantifier": "all datasets (any number of variables, dimensions, record types), all bin lengths", "why_tests_cant": "quantifies over arbitrary datasets with several time axes; tests average one file per instrument", "anchors": ["dolfyn/velocity.py:VelBinner.do_avg", "dolfyn/velocity.py:VelBinner.do_var"]}
{"id": "C99", "title": "A MATLAB file gives back the dataset", "statement": "Loading a dataset saved as MATLAB file gives the same variables with the same dimensions, shapes and values, also for derived variables and for datasets with one ping or one cell. (False: derived profiles such as the standard deviation of the speed are lost without a message, and axes of length one make loading raise.)", "quantifier": "all datasets", "why_tests_cant": "quantifies over arbitrary sets of variables and axis lengths; the tests round-trip a few raw files", "anchors": ["dolfyn/io/api.py:save_mat", "dolfyn/io/api.py:load_mat"]}
{"id": "C100", "title": "Settings in the userdata file reach the data", "statement": "The settings file is found next to the data file or at the path given; deprecated names are translated, `identity` becomes the identity matrix; the rotation matrix and the declination are applied and all other entries become attributes unchanged. (False: a path given by the user is never read, and any entry whose name contains `dec` is taken for the declination.)", "quantifier": "all file names, settings files and entries", "why_tests_cant": "tests use one userdata file with the standard entries", "anchors": ["dolfyn/io/base.py:_find_userdata", "dolfyn/io/base.py:_read_userdata", "dolfyn/io/nortek.py:read_nortek", "dolfyn/io/nortek2.py:read_signature"]}
{"id": "C101", "title": "One configuration per AD2CP record type", "statement": "When an AD2CP file is opened, a configuration is accepted for exactly the data record types present, and every record of a type has the accepted configuration word and the accepted beams, cells and coordinate system; a file whose records disagree is refused.", "quantifier": "for all files (all sequences of records)", "why_tests_cant": "The tests open a few files of constant configuration; none has a configuration change.", "anchors": ["dolfyn/io/nortek2_lib.py:482-530", "dolfyn/io/nortek2.py:142"]}
{"id": "C102", "title": "The last AD2CP ensemble is read exactly when it is complete", "statement": "The last ensemble of an AD2CP file is read when all its records are in the file, and dropped when the file ends inside it.", "quantifier": "for all files, all positions of the end of the file", "why_tests_cant": "Depends on where the file is cut and on which records the ensembles contain.", "anchors": ["dolfyn/io/nortek2.py:147-151"]}
{"id": "C103", "title": "Header commands are found under their names", "statement": "Each command in the header of an AD2CP file is found in the configuration under its name: plain commands with their text (all texts in order if repeated), GET commands with each item and its value.", "quantifier": "for all headers", "why_tests_cant": "The example files hold a few fixed commands.", "anchors": ["dolfyn/io/nortek2.py:177-210"]}
{"id": "C104", "title": "Ranges, sampling rate and beam matrix come from the plan", "statement": "For an AD2CP file the range of cell i (from 1) of each profile is the blanking distance plus i cell sizes, the sampling rate is that of the plan, and the beam matrix has the header's Mij at row i and column j.", "quantifier": "for all headers, numbers of cells, cell sizes and matrix sizes", "why_tests_cant": "The example files have one matrix and few plans.", "anchors": ["dolfyn/io/nortek2.py:593-663"]}
{"id": "C105", "title": "Dual-profile files are split without loss", "statement": "Reading an AD2CP file with two profiles gives two datasets: every variable is in exactly one of them (the beam matrix in both), the second has its own orientation matrix and list of variables to rotate, and a declination given for the file applies to both.", "quantifier": "for all dual-profile datasets (all variables, lengths, attributes)", "why_tests_cant": "The tests read one dual-profile file without declination.", "anchors": ["dolfyn/io/nortek2.py:666-722", "dolfyn/io/nortek2.py:96-127"]}
{"id": "C106", "title": "Dissipation of a point velocimeter from the structure function", "statement": "If in each bin the mean squared velocity difference follows Kolmogorov's law at the lags of the chosen frequency range, the structure-function estimate of the bin is its dissipation rate; scaling the fluctuations by c scales the estimate by |c|^3; a range reaching beyond the sampling rate gives a warning, not an error.", "quantifier": "for all series, bins, sampling rates, frequency ranges, speeds and dissipation rates", "why_tests_cant": "Tests compare one file with stored output.", "anchors": ["dolfyn/adv/turbulence.py:388-440"]}
{"id": "C107", "title": "Dissipation by the method of Trowbridge and Elgar", "statement": "For spectra that follow the model of Trowbridge and Elgar (2001) in the chosen frequency range the estimate is the dissipation rate, for spectra in rad/s and in Hz.", "quantifier": "for all spectra, frequency ranges, speeds, turbulence intensities and angles", "why_tests_cant": "Tests compare one file with stored output.", "anchors": ["dolfyn/adv/turbulence.py:462-543"]}
{"id": "C108", "title": "The Nortek reader makes room for every sample", "statement": "Before reading, the reader makes room for at least as many samples as a Vector file holds, and for at least as many profiles as an AWAC file holds.", "quantifier": "for all files (any number and sizes of records)", "why_tests_cant": "Depends on the length and the composition of the file; the tests read a few short files.", "anchors": ["dolfyn/io/nortek.py:284-335", "dolfyn/io/nortek.py:442-472"]}
{"id": "C109", "title": "Numbers in Nortek records are decoded as written", "statement": "Every number an instrument writes into a velocity, system or profile record of a Vector, Vectrino or AWAC file (clock, battery, sound speed, heading, pitch, roll, pressure, temperature, and velocity, amplitude and correlation per beam and cell) appears in the dataset in its own variable, with its sign and in the documented unit, in either byte order.", "quantifier": "all values the record can hold, all numbers of cells, one to three beams", "why_tests_cant": "Tests read a handful of files; none has every sign, cell count and byte order, so a field read with the wrong sign passes unnoticed.", "anchors": ["dolfyn/io/nortek.py:659-691", "dolfyn/io/nortek.py:765-787", "dolfyn/io/nortek.py:814-842", "dolfyn/io/nortek.py:1038-1077", "dolfyn/io/nortek.py:1228-1264", "dolfyn/io/nortek_defs.py:104-341"]}
{"id": "C110", "title": "AWAC ranges and head matrix", "statement": "AWAC cells are spaced by the reported cell size starting one cell beyond the reported blanking distance, close to the nominal ranges of the configuration; the beam matrix is the signed table of the head configuration divided by 4096; an unknown head frequency is refused.", "quantifier": "all cell counts, cell lengths, blanking distances and frequencies; all matrices", "why_tests_cant": "Tests compare one AWAC file whose rounding error happens to be small.", "anchors": ["dolfyn/io/nortek.py:1079-1097", "dolfyn/io/nortek.py:578-600"]}
{"id": "C111", "title": "Tilt is the inclination of the instrument's axis", "statement": "calc_tilt returns an angle from 0 to below 90 degrees which is zero only for an upright instrument and equals the angle between the instrument's axis and the vertical as given by its orientation matrix.", "quantifier": "all pitch and roll angles between -90 and 90 degrees, RDI and Nortek", "why_tests_cant": "Small tilts hide the difference between formulas; agreement over all angles is a statement about trigonometric functions.", "anchors": ["dolfyn/rotate/base.py:313-338", "dolfyn/rotate/rdi.py:102-174", "dolfyn/rotate/vector.py:209-260"]}
{"id": "C112", "title": "Vectors of Signature files are registered for rotation in their own frame", "statement": "After reading a Signature file, the list of variables that rotate2 turns contains every recorded velocity, acceleration, rotation-rate and magnetometer vector exactly once and nothing else, and the dataset's coordinate system is the frame in which the velocities were recorded.", "quantifier": "all combinations of record types, optional variables and coordinate settings of the plan", "why_tests_cant": "The sample files cover a few plans; a vector missing from the list is silently left in the wrong frame.", "anchors": ["dolfyn/io/nortek2.py:404-576"]}
{"id": "C113", "title": "Empty slots of dual-profile files are removed", "statement": "When a dual-profile file is read, the slots that belong to the other profile are removed from every variable of a record type: all recorded slots stay, in order, and the variables stay aligned.", "quantifier": "all numbers of slots and all interleavings", "why_tests_cant": "Sample files have one interleaving.", "anchors": ["dolfyn/io/nortek2.py:580-591"]}
{"id": "C114", "title": "Epoch times and dates convert faithfully", "statement": "epoch2date turns each epoch time into the date within half a microsecond of it, one date per time and in order, shifted by exactly the hour offset; later times never give earlier dates; dates survive a round trip through datetime64.", "quantifier": "all lists of times and offsets; all valid dates with microsecond resolution", "why_tests_cant": "Rounding of fractional seconds is only visible for particular fractions.", "anchors": ["dolfyn/time.py:52-137"]}
{"id": "C115", "title": "Printed times can be read back", "statement": "date2str with its default format prints fixed columns from which the year, month, day, hour, minute, second and microsecond can be read back; different times give different strings.", "quantifier": "all valid civil times from year 1000 on with any microsecond", "why_tests_cant": "Tests compare one string.", "anchors": ["dolfyn/time.py:140-163"]}
{"id": "C116", "title": "Component labels agree with the frame", "statement": "After a rotation the labels of the vector components are the names of the axes of the new frame, one per component, and the recorded coordinate system is that frame; labels of different frames differ.", "quantifier": "all makes, numbers of beams and frames", "why_tests_cant": "Each test file has one instrument; other numbers of beams are not tried.", "anchors": ["dolfyn/rotate/base.py:40-96"]}
{"id": "C117", "title": "Spectra in Hz and in rad/s describe the same energy", "statement": "calc_psd in rad/s returns the same bins and times as in Hz, frequencies multiplied by 2 pi and densities divided by 2 pi, noise correction included, so the energy of each component in each bin is the same; one call raises exactly when the other does.", "quantifier": "all velocities, windows, steps, pads, noise levels, FFT lengths", "why_tests_cant": "A missing 2 pi is invisible when only one unit is tested.", "anchors": ["dolfyn/velocity.py:1047-1164", "dolfyn/binned.py:354-408", "dolfyn/binned.py:469-506"]}
{"id": "C118", "title": "Spectra, frequencies and times of calc_psd belong together", "statement": "calc_psd returns for each component one spectrum per bin, computed from that bin and its neighbours, at the frequencies k fs / n_fft and the mean time of that bin, also for a per-call n_bin.", "quantifier": "all record lengths, bin and FFT lengths, windows, per-call overrides", "why_tests_cant": "Shape mismatches only appear for particular combinations of lengths.", "anchors": ["dolfyn/velocity.py:1047-1164", "dolfyn/binned.py:354-408", "dolfyn/binned.py:469-506"]}
{"id": "C119", "title": "Turbulent energy and intensities of the accessor", "statement": "tke is half the sum of the variances and missing when they are missing; E_coh is the root of the sum of the squared stresses and at most 2/sqrt(3) times tke; I_tke times the speed, squared, is the sum of the variances.", "quantifier": "all variances and stresses, missing or present", "why_tests_cant": "The inequality and the missing-value behaviour hold or fail for particular data only.", "anchors": ["dolfyn/velocity.py:354-447"]}
{"id": "C120", "title": "Cross spectra of the components of a point velocimeter", "statement": "calc_csd returns for each pair uv, uw, vw and each bin the cross spectrum of the two components over the same samples, at the frequencies k fs / n_fft_coh and the mean time of the bin, also for a per-call n_bin; in rad/s it is the same spectrum per radian.", "quantifier": "all record lengths, bin and FFT lengths, windows, units, per-call overrides", "why_tests_cant": "Shape mismatches and missing factors only appear for particular combinations.", "anchors": ["dolfyn/adv/turbulence.py:97-175", "dolfyn/binned.py:410-467"]}
{"id": "C121", "title": "Median filtering of the orientation", "statement": "medfilt_orient replaces every quaternion component or angle by the median of its window, so that constant stretches are kept and short spikes removed, and afterwards the orientation matrices are the rotations of the filtered quaternions; it works for every record of unit quaternions.", "quantifier": "all records, kernels and instruments", "why_tests_cant": "The behaviour at the ends of the record and for quaternions of changing sign depends on the data.", "anchors": ["dolfyn/adp/clean.py:306-344"]}
{"id": "C122", "title": "TRDI data read from file are the recorded numbers in physical units", "statement": "Reading a TRDI (PD0) file yields, for every ensemble read, the recorded velocity, correlation, amplitude, percent-good and status of every cell and beam, the leader quantities (attitude, temperature, pressure, ...), the time and, where recorded, bottom track and altimeter, each in its physical unit and at its own cell, beam and ensemble; data marked bad or missing come out as missing.", "quantifier": "every file of complete ensembles with any number of cells and blocks, every cell, beam, ensemble and recorded value", "why_tests_cant": "the space of files and values is unbounded; tests compare a few files with stored outputs of the same reader", "anchors": ["dolfyn/io/rdi.py:315-374", "dolfyn/io/rdi.py:820-1055", "dolfyn/io/rdi_defs.py:38-190"]}
{"id": "C123", "title": "A TRDI file becomes one dataset with the recorded variables, times and ranges", "statement": "Reading a TRDI (PD0) file of complete ensembles returns a dataset whose data variables are exactly those recorded in the ensembles read, with one time per ensemble read, one range per depth cell (distance of the first cell plus multiples of the cell size), the sampling rate of the recorded ping settings, and velocities laid out beam, range, time.", "quantifier": "every file of complete ensembles, every number of ensembles requested, every setup", "why_tests_cant": "the combinations of blocks, cells and setups are unbounded; tests read a few whole files", "anchors": ["dolfyn/io/rdi.py:17-131", "dolfyn/io/rdi.py:312-387", "dolfyn/io/rdi.py:1306-1345"]}
{"id": "C124", "title": "The configuration of a TRDI dataset is the recorded setup of the instrument", "statement": "The attributes of a dataset read from a TRDI file (model, frequency, beam angle and pattern, orientation, numbers of beams, cells and pings, cell size, blanking, thresholds, coordinate frame and transformation flags, misalignment, magnetic variation, sensors, first-cell distance, pulse and lag lengths, bandwidth, power, serial number) equal the setup recorded in the fixed leader, in physical units.", "quantifier": "every setup that the fixed leader can represent, every file of complete ensembles", "why_tests_cant": "about forty packed fields with bit flags; tests compare a few stored instruments", "anchors": ["dolfyn/io/rdi.py:735-813", "dolfyn/io/rdi_defs.py:3-36"]}
{"id": "C125", "title": "Cross spectra of records of different lengths compare the same spans in the order given", "statement": "For two records of different lengths over the same span of time, cpsd_quasisync averages the products of pairs of segments taken at the same relative position through both records, every segment inside its record, first argument times the conjugate of the second; exchanging the arguments conjugates the result. coherence subtracts each record's own noise level.", "quantifier": "every pair of lengths, FFT length, window and signals", "why_tests_cant": "holds for all signals and lengths; the sign of the phase is invisible in magnitude plots", "anchors": ["dolfyn/tools/psd.py:89-236"]}
{"id": "C126", "title": "Translational motion is the high-passed integral of the acceleration", "statement": "Motion correction integrates the acceleration (less its low-passed part) over time from the start of each record, exactly for accelerations linear in time, and subtracts the low-passed velocity; the filter frequencies are those given as arguments, else those stored in the dataset, else 0.03 Hz and a third of the acceleration filter.", "quantifier": "every record, sampling rate, filter and combination of arguments and attributes", "why_tests_cant": "numerical tests compare stored outputs with tolerances; the integration rule is invisible there", "anchors": ["dolfyn/adv/motion.py:52-72", "dolfyn/adv/motion.py:141-194"]}
{"id": "C127", "title": "correlation_filter does not edit correlation or amplitude", "statement": "correlation_filter blanks velocities and leaves correlation and amplitude data as they are, as its documentation says.", "quantifier": "all data and thresholds", "why_tests_cant": "a statement about all other variables of the dataset", "anchors": ["dolfyn/adp/clean.py:245-305"]}
{"id": "C128", "title": "The setup recorded in a Nortek file is reported as it was chosen", "statement": "Every number, choice, flag and text of the hardware, head and user configuration records of a Vector, AWAC or Vectrino file is reported in the dataset as the instrument wrote it, including the transformation matrix with one row and column per beam, in both byte orders.", "quantifier": "every setup, hardware and head an instrument can record", "why_tests_cant": "the three records hold about a hundred fields and some two million million bits of settings; test files hold one setup each", "anchors": ["dolfyn/io/nortek.py:486-621"]}
{"id": "C129", "title": "Nortek files open as the instrument that wrote them", "statement": "A file of a Vector, AWAC or Vectrino is recognised by its header and serial number; sampling rate and reference frame follow the setup; the data are read from behind the configuration; both byte orders are understood; the duty cycle describes the bursts.", "quantifier": "every hardware, head, setup and data", "why_tests_cant": "no test file is big-endian, and each test file has one serial number, setup and duty cycle", "anchors": ["dolfyn/io/nortek.py:176-268", "dolfyn/io/nortek.py:286-352"]}
{"id": "C130", "title": "Filling gaps keeps the data and respects maxgap", "statement": "fillgaps_time and fillgaps_depth keep every value that is there, fill missing values by interpolation, and leave gaps longer than maxgap as they are; they work along the first dimension named after time or range.", "quantifier": "every record, gap, limit and interpolator", "why_tests_cant": "a statement about all positions and lengths of gaps", "anchors": ["dolfyn/adp/clean.py:377-432"]}
{"id": "C131", "title": "Saving writes the encoding asked for and leaves the dataset alone", "statement": "save hands each variable to netCDF with its encoding without the entries netCDF4 cannot take, with compression if asked for, and with the units of times; values given by the user take precedence; the dataset in memory is unchanged.", "quantifier": "every dataset, encoding and compression flag", "why_tests_cant": "encodings are dictionaries with arbitrary entries, shared between the caller's dataset and the argument", "anchors": ["dolfyn/io/api.py:26-63", "dolfyn/io/api.py:183-204"]}
{"id": "C132", "title": "The ADV averaging tool describes its result and leaves its input alone", "statement": "Calling an ADVBinner returns averages that carry the attributes of the data, without the instrument configuration, with the binning parameters; the data averaged are not changed.", "quantifier": "all attributes and binning parameters", "why_tests_cant": "attributes are arbitrary", "anchors": ["dolfyn/adv/turbulence.py:30-50"]}
{"id": "C133", "title": "Beam stresses do not depend on the frame the data is in", "statement": "calc_stress_4beam and calc_stress_5beam return the same for beam data and for the same data rotated to any frame; arguments given in the call count before the attributes of the dataset and the settings of the binner; the dataset handed over is not changed.", "quantifier": "all datasets, frames, angles, noise levels, orientations", "why_tests_cant": "The rotation inside the call hits all instruments and matrices; tests use beam data of one instrument", "anchors": ["dolfyn/adp/turbulence.py:250-283", "dolfyn/adp/turbulence.py:353-524"]}
{"id": "C134", "title": "Binned results carry the coordinates of their own dimensions", "statement": "Turbulence intensity, energy, coherence, phase and covariances of an array carry, for every dimension of the array, the coordinate of that dimension: averaged in the bins if it is a time, unchanged if not.", "quantifier": "all arrays, dimension names and coordinates", "why_tests_cant": "Tests use arrays along a dimension called time only", "anchors": ["dolfyn/binned.py:144-161", "dolfyn/velocity.py:923-1050"]}
{"id": "C135", "title": "Navigation data recorded with an ensemble are reported as recorded", "statement": "Positions, times, speeds, tracks and attitude of VMDAS and WinRiver files appear in the dataset with the values recorded (in degrees, m/s, seconds, south and west negative), and are missing in ensembles without a fix.", "quantifier": "all navigation blocks and sentences, all decoders of floats, all clocks", "why_tests_cant": "Tests compare with reference files of one area, in which no roll is negative and no day ends", "anchors": ["dolfyn/io/rdi.py:983-1041", "dolfyn/io/rdi.py:1056-1122", "dolfyn/io/rdi.py:1124-1253"]}
{"id": "C136", "title": "A missing sample spoils only the spectra of the bins that read it", "statement": "Power spectra of bins whose samples (with the padding on both sides) are complete are those of a record without missing samples, whatever is missing elsewhere; a bin that lacks a sample has no spectrum.", "quantifier": "all records, positions of missing samples, bin and FFT lengths, windows and noise levels", "why_tests_cant": "Tests use complete records", "anchors": ["dolfyn/binned.py:354-408", "dolfyn/tools/psd.py:239-371", "dolfyn/tools/misc.py:25-55"]}
{"id": "C137", "title": "TRDI files with changing numbers of depth cells", "statement": "In a file whose number of depth cells changes from ensemble to ensemble, every ensemble is read; the cells it has hold the recorded values, the cells it lacks are missing, and the range coordinate says where each value was measured.", "quantifier": "all files of regular ensembles with any numbers of cells, all values, all numbers of ensembles read", "why_tests_cant": "Test files have constant numbers of cells but for one transect", "anchors": ["dolfyn/io/rdi.py:326-386", "dolfyn/io/rdi.py:704-722", "dolfyn/io/rdi.py:920-981", "dolfyn/io/rdi.py:1306-1345", "dolfyn/io/rdi_defs.py:169-190"]}
{"id": "C138", "title": "Five-beam turbulence corrects for small tilts", "statement": "For an instrument with a small constant pitch and roll, the variance and stresses reported by the five-beam method are those in the frame of the level instrument, up to second order in the tilt. Pitch and roll have the meaning they have in the orientation matrix of the package.", "quantifier": "all records, headings, beam angles, directions of tilt, bins; both makes", "why_tests_cant": "The error is proportional to the tilt and hidden by noise; tests compare with stored output", "anchors": ["dolfyn/adp/turbulence.py:286-329", "dolfyn/adp/turbulence.py:408-524", "dolfyn/rotate/vector.py:209-259", "dolfyn/rotate/rdi.py:102-174"]}
{"id": "C139", "title": "Turbulent energy and spectra do not depend on the frame", "statement": "For an instrument that does not move, the variances and stresses computed before and after a rotation between instrument, earth and principal frame are the same tensor; the turbulent energy of every bin and the sum of the three velocity spectra at every frequency are unchanged.", "quantifier": "all complete records, bins, window lengths, instruments, pairs of frames and constant orientations", "why_tests_cant": "Involves rotation, detrending, binning and Fourier transforms together; tests check each against stored values in one frame", "anchors": ["dolfyn/rotate/api.py:25-119", "dolfyn/velocity.py:971-1045", "dolfyn/adv/turbulence.py:52-95", "dolfyn/velocity.py:1047-1172"]}
{"id": "C140", "title": "Averaging and rotating commute", "statement": "For an instrument that does not move, rotating the bin averages of a dataset gives the averages of the rotated data.", "quantifier": "all datasets, bin lengths, frames, instruments", "why_tests_cant": "Relates two orders of two API calls for all data", "anchors": ["dolfyn/velocity.py:501-571", "dolfyn/rotate/api.py:25-119", "dolfyn/rotate/base.py:99-144"]}
{"id": "C141", "title": "Structure functions are complete and labelled by their cells", "statement": "The structure function of a call holds, for each cell, bin and separation up to the given range, the mean squared difference between the fluctuations of the two cells of the documentation (z and z+r); the dissipation comes from the least-squares line through these values. Ranges that leave the profile give missing values.", "quantifier": "all velocity records, cells, ranges, bin lengths", "why_tests_cant": "Needs the values for all profiles and ranges; the test compares one file with stored values", "anchors": ["dolfyn/adp/turbulence.py:653-809"]}
{"id": "C142", "title": "AD2CP data come in the units of their labels", "statement": "Each variable of an AD2CP record is the stored number in the unit of its label: factor and offset applied once, velocities times ten to the power of the exponent stored in the same record.", "quantifier": "all record configurations, numbers of beams and cells, all stored numbers", "why_tests_cant": "One wrong factor or a field read twice is visible only in files that have the field; tests use a few files", "anchors": ["dolfyn/io/nortek2_defs.py:113-118", "dolfyn/io/nortek2_defs.py:142-164", "dolfyn/io/nortek2_defs.py:178-369", "dolfyn/io/nortek2.py:392-401"]}
{"id": "C143", "title": "An AD2CP file is read into the right columns in physical units", "statement": "Reading a file of AD2CP ensembles gives, in the column of each ensemble, the numbers of the records of that ensemble in the units of their labels, for every record type and variable, whatever other records are in between.", "quantifier": "all numbers of ensembles, record types, orders, configurations, counters, stored numbers, intervening records", "why_tests_cant": "Combines index, counters, positions, configuration, field lists, loop and units; tests compare a few files with stored results", "anchors": ["dolfyn/io/nortek2.py:125-145", "dolfyn/io/nortek2.py:147-151", "dolfyn/io/nortek2.py:212-223", "dolfyn/io/nortek2.py:272-401", "dolfyn/io/nortek2_lib.py:97-257"]}
{"id": "C144", "title": "Reading an AD2CP file again gives the same result", "statement": "The index kept next to an AD2CP file gives the same result as indexing the file anew: for a second reading, for a file that has grown, and after a failed reading.", "quantifier": "all files of complete records, file contents, index files", "why_tests_cant": "Depends on the state of the disk; tests always start without an index file or with a fresh one", "anchors": ["dolfyn/io/nortek2_lib.py:38-72", "dolfyn/io/nortek2_lib.py:97-155", "dolfyn/io/nortek2_lib.py:225-257"]}
{"id": "C145", "title": "After damaged bytes the TRDI reader resumes at the next ensemble", "statement": "If a TRDI file contains bytes that belong to no ensemble, the reader continues with the first ensemble behind them, does not lose the ensemble in front of them, and never reads data from a place that is not the beginning of an ensemble.", "quantifier": "all byte strings, positions, lengths of the damage up to the search limit, lengths of the ensembles", "why_tests_cant": "Damage can have any length and content; the sample files are intact", "anchors": ["dolfyn/io/rdi.py:255-274", "dolfyn/io/rdi.py:488-519", "dolfyn/io/rdi.py:521-548"]}
{"id": "C146", "title": "Reading a Vector file gives exactly the recorded samples", "statement": "Reading a continuous recording of a Vector gives a dataset with one entry per recorded sample, in order: velocity, amplitude, correlation and pressure as recorded, times that advance by the sampling interval, housekeeping values (battery, speed of sound, heading, pitch, roll, temperature) equal to the system records where there is one and on the straight line in between, and IMU values in SI units in the instrument axes on the sample they belong to. There are no other entries.", "quantifier": "all sequences of complete records, contents, sampling rates, positions of the system and IMU records, room made by the reader", "why_tests_cant": "A test file has one length and one instrument; whether anything is lost or invented depends on all records together", "anchors": ["dolfyn/io/nortek.py:17-90", "dolfyn/io/nortek.py:284-306", "dolfyn/io/nortek.py:415-440", "dolfyn/io/nortek.py:659-691", "dolfyn/io/nortek.py:817-895", "dolfyn/io/nortek.py:897-1036", "dolfyn/io/nortek.py:1279-1282", "dolfyn/io/base.py:80-110"]}
{"id": "C147", "title": "Reading an AWAC file gives exactly the recorded profiles", "statement": "Reading the file of an AWAC without waves gives a dataset with one entry per recorded profile and no others: time, velocities and amplitudes of every beam and cell, battery, speed of sound, heading, pitch, roll, pressure and temperature as recorded in physical units, and the ranges that belong to the recorded frequency, cell length and blanking. The configuration reported is the recorded one.", "quantifier": "all configurations, numbers of profiles, contents of the profiles, and records of other kinds in between", "why_tests_cant": "A test file has one length, setup and frequency; whether anything is lost or invented depends on configuration, room and records together", "anchors": ["dolfyn/io/nortek.py:17-90", "dolfyn/io/nortek.py:184-330", "dolfyn/io/nortek.py:415-472", "dolfyn/io/nortek.py:1038-1097", "dolfyn/io/base.py:80-110"]}
{"id": "C148", "title": "The printed summary of a dataset is right", "statement": "Printing a dataset's velocity accessor shows its instrument, reference frame, number of pings and sampling rate as stored; the duration between the first and the last ping, in the largest unit of which it is more than one; the names of variables that are in the dataset, each once, at most the announced number; and the hint at other variables exactly if some variable is not shown. A dataset without times is printed with a remark.", "quantifier": "all datasets: any times, any set of variable names", "why_tests_cant": "A test prints a few datasets; the wildcard matches, the limit and the hint depend on the whole set of names", "anchors": ["dolfyn/velocity.py:169-240"]}
{"id": "C149", "title": "A Nortek file rotated to the earth frame uses the recorded attitude", "statement": "Reading a file of an AWAC or of a Vector without IMU, with a head rotation matrix and a magnetic declination in the userdata or without, and rotating the dataset to the earth frame gives at every sample the recorded velocity expressed in east, north and up: beam velocities through the matrix of the transducers, then through the head matrix, then by heading, pitch and roll recorded for that time (turned about its x axis by 180 degrees when the instrument points down), then turned clockwise by the declination. Between two records of the compass the attitude lies between the two.", "quantifier": "all files: any number of profiles, cells, samples and system records, all recorded frames, angles and matrices, all declinations", "why_tests_cant": "The end-to-end effect of reading, filling gaps, the orientation matrix and three rotations cannot be sampled; a heading that passes north between two records is a rare input", "anchors": ["dolfyn/io/nortek.py:17-103", "dolfyn/rotate/vector.py:29-122", "dolfyn/rotate/vector.py:189-259", "dolfyn/rotate/api.py:186-345"]}
{"id": "C150", "title": "A TRDI file rotated to the earth frame uses the recorded attitude", "statement": "Reading a TRDI file and rotating the dataset to the earth frame gives, for every ensemble and cell whose velocities are good, the recorded velocity expressed in east, north and up: beam velocities are resolved into the axes of the instrument, which are turned by the heading, pitch and roll recorded in the same ensemble (roll plus 180 degrees when looking up; heading only for ship-frame data whose tilts were applied), and the result is turned clockwise by the declination of the userdata. The error velocity stays as it is. Beam velocities caused by a uniform motion of the water give back this motion. The bottom-track velocity is treated in the same way, and bad values stay missing.", "quantifier": "all files of regular ensembles: any number of ensembles and cells, all recorded frames, beam angles, head types, orientations, angles and declinations", "why_tests_cant": "The composition of decoding, assembling and up to four rotations over all attitudes cannot be sampled; instruments turned over during a deployment and bad bottom tracks are rare inputs", "anchors": ["dolfyn/io/rdi.py:54-136", "dolfyn/io/rdi.py:159-182", "dolfyn/rotate/rdi.py:7-174", "dolfyn/rotate/api.py:25-119"]}
{"id": "C151", "title": "A Signature file rotated to the earth frame uses the attitude recorded in the same ping", "statement": "Reading a Signature file (AD2CP) and rotating the dataset to the earth frame gives, for every cell and ping, the recorded velocity expressed in east, north and up: beam velocities are resolved with the matrix in the head of the file, the axes of the instrument are turned by the orientation recorded in the same ping (the recorded matrix, or heading, pitch and roll, turned over when looking down), and the result is turned clockwise by the declination of the userdata. Accelerations, rates of rotation and magnetic field end up in the earth frame in the same way. A fourth component is a second measurement of the vertical one.", "quantifier": "all AD2CP files of burst records with or without bottom track, fifth beam and echo sounder: any number of ensembles and cells, three or four beams, all recorded coordinate systems, with and without recorded matrices, all angles and declinations", "why_tests_cant": "The composition of decoding, indexing, reorganising and rotating over all attitudes and record layouts cannot be sampled; instruments turned over during a deployment are rare inputs", "anchors": ["dolfyn/io/nortek2.py:22-106", "dolfyn/io/nortek2.py:431-663", "dolfyn/rotate/signature.py:9-129", "dolfyn/rotate/api.py:25-119"]}
{"id": "C152", "title": "A Vector file with an IMU rotated to the earth frame uses the attitude the IMU recorded", "statement": "Reading a file of a Vector with an inertial sensor (IMU) that records with every sample, with a head rotation matrix and a magnetic declination in the userdata or without, and rotating the dataset to the earth frame gives at every sample the recorded velocity, acceleration, rate of rotation and magnetic field expressed in east, north and up. The attitude is the one in the IMU record of that sample (axes of the IMU towards north, east and down); when IMU records hold no matrix it is that of heading, pitch and roll. The head matrix acts on the velocity only.", "quantifier": "all continuous recordings of Vectors with an IMU record of type 195, 204 or 211 behind each sample: any length, sampling rate, contents of records and coordinate system of the velocity, all head rotations and declinations", "why_tests_cant": "Axes of IMU, head and instrument differ by permutations and signs that a mistake in one place can hide in another; only the composition over all attitudes and record types shows that the result is right", "anchors": ["dolfyn/io/nortek.py:86-110", "dolfyn/io/nortek.py:897-1044", "dolfyn/rotate/vector.py:9-120", "dolfyn/rotate/base.py:101-150", "dolfyn/rotate/api.py:25-119"]}
{"id": "C153", "title": "read_signature turns the bytes of a Signature file into velocities in the earth frame, with the settings in its head", "statement": "For a Signature (AD2CP) file that begins with a text of commands, `read_signature` takes the model of the instrument, the angle of the beams, the sampling rate and the beam matrix from that text, wherever the commands stand in it and whichever line ends are used, and the records of the pings give the rest; rotating the dataset to the earth frame gives the recorded velocities turned with that matrix, the recorded attitude and the declination of the userdata. A file that does not begin with the two bytes of the format is refused.", "quantifier": "all files with a head of commands (any number, order and text of other commands) and any number of ensembles of velocity, bottom track, fifth beam and echo sounder records with any contents; all declinations", "why_tests_cant": "Test files have the heads of a handful of instruments; whether the settings survive other commands, other line ends and other orders, and reach the right place of the rotation, is a statement about all texts and all records", "anchors": ["dolfyn/io/nortek2.py:17-123", "dolfyn/io/nortek2.py:126-210", "dolfyn/io/nortek2.py:256-266", "dolfyn/io/nortek2.py:593-663", "dolfyn/rotate/signature.py:9-120"]}
{"id": "C154", "title": "Reading a Vector file recorded in bursts gives the recorded samples with the times of their bursts", "statement": "Reading a recording of a Vector in bursts gives a dataset with one entry per recorded sample, in order, with the recorded velocity, amplitude, correlation and pressure. Within a burst the times advance by the sampling interval from the beginning of the burst; between bursts they jump to the beginning of the next one. Housekeeping values (battery, speed of sound, heading, pitch, roll, temperature) equal the system records where there is one and lie on the straight line in time in between, also from one burst to the next; the orientation (up or down) is that of the system records of the burst; IMU values are on the sample they belong to. There are no other entries.", "quantifier": "all numbers and lengths of bursts, pauses between them, contents, sampling rates, positions of the system and IMU records, room made by the reader", "why_tests_cant": "A test file has one burst length and few bursts; that no sample slips into a neighbouring burst depends on all lengths and positions together", "anchors": ["dolfyn/io/nortek.py:17-90", "dolfyn/io/nortek.py:284-306", "dolfyn/io/nortek.py:817-895", "dolfyn/io/nortek.py:897-1036", "dolfyn/tools/misc.py:214-268", "dolfyn/io/base.py:80-110"]}
{"id": "C155", "title": "Despiking finds lone spikes of any height and does not depend on unit, sign or offset", "statement": "GN2002 flags the same samples of a record when all values are multiplied by a constant other than zero or shifted by a constant. In a block without missing samples it flags exactly the samples whose value (less the mean), first and second difference lie outside the ellipsoid of Goring and Nikora with the universal threshold. A lone spike in an otherwise constant record is flagged, however small or large it is; in a constant record nothing is flagged.", "quantifier": "all records and block lengths, factors, offsets, positions and heights of the spike", "why_tests_cant": "Tests compare the flags of one recorded file with stored ones; that the threshold moves with the data for all units is a statement about all records", "anchors": ["dolfyn/adv/clean.py:230-272", "dolfyn/adv/clean.py:275-344"]}
{"id": "C156", "title": "A gap in the record does not hide spikes elsewhere", "statement": "GN2002 flags the spikes of a record with missing samples as if the stretches between the gaps were separate records; missing samples are not flagged.", "quantifier": "all records, numbers, positions and lengths of gaps, block lengths", "why_tests_cant": "Test records have few gaps; how gaps and blocks fall together depends on all positions", "anchors": ["dolfyn/adv/clean.py:275-344", "dolfyn/tools/misc.py:58-103"]}
{"id": "C157", "title": "Blanking beyond the surface works on every variable of a dataset", "statement": "nan_beyond_surface goes through all variables that run over range, whatever their number of cells and profiles (fifth beam, surface layer, average profiles, echo sounder), and blanks in each of them exactly the cells whose own distance is beyond the surface interference, for all beams. Without inplace the caller's dataset is never changed; a call that raises changes nothing; a second call changes nothing; the deployment height does not matter.", "quantifier": "all datasets (variables, shapes, ranges, depths, missing depths), beam angles, deployment heights, fill values, both values of inplace", "why_tests_cant": "The test files have one profile per dataset; datasets with a surface layer, a fifth beam or an echo sounder of other lengths are not among them", "anchors": ["dolfyn/adp/clean.py:181-246", "dolfyn/adp/clean.py:11-50"]}
{"id": "C158", "title": "Times keep their instant through double precision", "statement": "Epoch times are doubles. A datetime64 turned into an epoch time and back moves by less than half a microsecond, whole seconds come back exactly, order is kept, and from 2007 to 2037 a second round trip changes nothing more. Datetimes (whole microseconds) survive the ways to datetime64 and to epoch seconds and back exactly, datetimes to the tenth of a millisecond also the way to MATLAB datenums. A clock reading stored by a reader is off by less than a quarter of a microsecond. (False: that a datetime64 comes back exactly; a time at 0.1 s comes back 96 ns early.)", "quantifier": "all instants from 1970 to 2106 (MATLAB: days 2 to 2^20), every operation rounded to the nearest double", "why_tests_cant": "rounding error at every step; tests compare a few dates within tolerance", "anchors": ["dolfyn/time.py:13-83", "dolfyn/time.py:86-137", "dolfyn/time.py:166-236"]}
{"id": "C159", "title": "Sound speed, temperature, pressure and attitude of a Signature ping are those its records contain", "statement": "A Signature with a fifth beam writes two records per ping, each with its own sensor readings. The returned sound speed, temperatures, pressure and battery voltage are the means of the two, heading, pitch and roll the direction midway between the two, also across north. When one of the two records is missing, the readings are those of the other. (False for a missing fifth-beam record: the readings are averaged with zeros.)", "quantifier": "every AD2CP file with burst and fifth-beam records, of any number of pings, any of which may lack a record", "why_tests_cant": "missing records and wrap-around of angles do not occur in the test files", "anchors": ["dolfyn/io/nortek2.py:603-611", "dolfyn/io/nortek2_lib.py:10-33", "dolfyn/io/nortek2_defs.py:13-19", "dolfyn/io/nortek2_defs.py:66-72"]}
{"id": "C160", "title": "Cross spectra, coherence and phase of records with missing samples rest on complete data only", "statement": "Where all the samples a bin and its padding use are there in both records, the cross spectrum of the bin is that of records without gaps, whatever is missing elsewhere; a bin that lacks a sample of either record has no cross spectrum of that pair. Complete records have the coherence and phase of their values; a sample missing in either makes them missing at every frequency. (False for the phase: whatever the second record lacks after its first segment goes unnoticed.)", "quantifier": "all records, gaps, bin and FFT lengths (at least 3, at most the bin), windows", "why_tests_cant": "any pattern of gaps in either of two records; tests use gap-free data", "anchors": ["dolfyn/tools/psd.py:89-153", "dolfyn/tools/psd.py:239-322", "dolfyn/tools/psd.py:374-434", "dolfyn/binned.py:410-467", "dolfyn/adv/turbulence.py:97-175"]}
{"id": "C161", "title": "Opening and reading a file comes to an end, whatever it contains", "statement": "For every sequence of bytes, opening it as a Nortek, AD2CP or TRDI file and reading it ends after finitely many steps, with data or with an exception. (False: a Nortek record with a size of 0 near the start of the data, an AD2CP record with a size of 65526, or a wrong offset in a WinRiver II file of TRDI are read over and over again.)", "quantifier": "all byte sequences as files", "why_tests_cant": "every damaged or foreign file of any length; a test that does not end tells nothing, and no set of damaged files is complete", "anchors": ["dolfyn/io/nortek.py:361-472", "dolfyn/io/nortek2_lib.py:97-155", "dolfyn/io/nortek2.py:272-362", "dolfyn/io/rdi.py:230-330", "dolfyn/io/rdi.py:424-590"]}
{"id": "C162", "title": "Single precision keeps every recorded step", "statement": "The variables returned by the readers are single-precision numbers. From each of them the recorded integer can be read off (it is the nearest multiple of the scale), different recorded values give different numbers in the same order, and exactly the TRDI velocities recorded as bad become missing although they are compared as floating-point numbers. (False for values of more than 24 bits: AD2CP pressures a millibar apart beyond 16777 dbar become one number.)", "quantifier": "all recorded integers of up to 2^22 steps (all 16-bit values; pressures to 4194 dbar; with two factors 2^20) and all scales and offsets", "why_tests_cant": "every recorded value times every scale, each with its own rounding; comparisons of floating-point numbers for equality", "anchors": ["dolfyn/io/nortek2_defs.py:160-165", "dolfyn/io/nortek2.py:400-401", "dolfyn/io/nortek_defs.py:80-98", "dolfyn/io/nortek.py:768-788", "dolfyn/io/rdi.py:846-882", "dolfyn/io/rdi.py:924-928", "dolfyn/io/rdi.py:1000-1030", "dolfyn/io/rdi_defs.py:188-189"]}
{"id": "C163", "title": "Times of averaged data are the mean times of the bins", "statement": "The time coordinate of averaged data has one entry per bin, the mean of the times of the samples of the bin to within 21 microseconds; for an evenly ticking clock this is the middle of the bin. The times increase from bin to bin. (False to the nanosecond, the resolution in which times are stored.)", "quantifier": "all times from 1970 to 2106, bin lengths, numbers of samples, and orders in which the samples may be added", "why_tests_cant": "rounding errors of sums of numbers near 1.6e9 depend on length and order of the additions; a test sees one bin length", "anchors": ["dolfyn/binned.py:285-311", "dolfyn/time.py:48-75", "dolfyn/time.py:120-140", "dolfyn/binned.py:60-110"]}
{"id": "C164", "title": "Reading a Vectrino file gives exactly the recorded samples", "statement": "Reading the file of a Vectrino gives a dataset with one entry per recorded sample and no others, in order: velocities in the recorded resolution, amplitudes, correlations and status of all four receivers as recorded. The first sample has the recorded start time, and the times advance by the sampling interval. The configuration reported is the recorded one.", "quantifier": "all configurations with at least one sample per second, numbers of samples, contents of the samples, and records of other kinds in between", "why_tests_cant": "A test file has one length, setup and one event record; whether anything is lost, invented or shifted depends on configuration, room, records and the end of the file together", "anchors": ["dolfyn/io/nortek.py:17-90", "dolfyn/io/nortek.py:332-352", "dolfyn/io/nortek.py:412-472", "dolfyn/io/nortek.py:782-787", "dolfyn/io/nortek.py:1170-1264", "dolfyn/io/nortek_defs.py:483-524", "dolfyn/io/base.py:80-110"]}
{"id": "C165", "title": "Variances of bins are right in single precision", "statement": "The variance of each bin, which is accumulated in single precision, is that of the samples of the bin that are not missing, to a few units in the last place; a constant record has the variance 0, whatever its value.", "quantifier": "all bin lengths, values, patterns of missing samples and orders of the additions", "why_tests_cant": "Tests compare with stored results of the same arithmetic on one record; how much the offset of a record leaks into its variance depends on value, length and order of the additions", "anchors": ["dolfyn/binned.py:314-332"]}
{"id": "C166", "title": "The axis argument names the axis of the data along which bins are made", "statement": "mean, var, std and demean with an axis give, for every series along that axis of the data and each of its bins, the statistic of the samples of the bin; an axis may be counted from the front or from the back.", "quantifier": "all arrays with two axes, both axes under either number, all integer bin lengths, any missing samples", "why_tests_cant": "Tests use the default axis", "anchors": ["dolfyn/binned.py:255-352"]}
{"id": "C167", "title": "Surface-layer profiles arrive as recorded", "statement": "The surface-layer variables of a TRDI river instrument hold, for each ensemble, cell and beam, the recorded value in its unit, and are missing where the instrument marked a velocity as missing or recorded no such cell; the distances of the cells are those of the leader; every surface-layer cell recorded is kept; every variable that is listed for rotation is there.", "quantifier": "all files of complete ensembles with any blocks in any order, any leaders that change from ensemble to ensemble, any number of cells, any values", "why_tests_cant": "The test file of a river instrument has one leader throughout and is compared with the library's own stored output; a surface layer whose number of cells varies (the instrument adapts it to the depth) does not occur in it", "anchors": ["dolfyn/io/rdi.py:723-733", "dolfyn/io/rdi.py:901-981", "dolfyn/io/rdi.py:1306-1323", "dolfyn/io/rdi_defs.py:93-101", "dolfyn/io/rdi_defs.py:189-190"]}
{"id": "C168", "title": "Smoothing the detected surface replaces each depth by the median of its neighbours", "statement": "With a filter length, find_surface gives for each profile the median of the depths detected in the profiles within half a filter length; spikes shorter than half the filter disappear, a constant depth is kept, and a depth is missing only where too many of its neighbours are.", "quantifier": "all records, all odd filter lengths, all depths", "why_tests_cant": "No test uses the filter", "anchors": ["dolfyn/adp/clean.py:53-104", "dolfyn/tools/misc.py:274-315"]}
{"id": "C169", "title": "Rotating in single precision loses no recorded step", "statement": "Rotating velocities to the earth frame in the single precision of the arrays gives the exactly rotated velocity to a few units in the last place of the largest component, and rotating back gives, rounded to the recorded resolution, the recorded number; repeating it lets the error grow no faster than compound interest.", "quantifier": "all recorded velocities of 16 bits, all attitudes, all orders of the additions in einsum, with and without fused multiply-add, any cosines and sines accurate to 2 units in the last place", "why_tests_cant": "Tests compare a few records with stored results and a tolerance of 1e-5; whether a step is lost depends on velocity, attitude and build of numpy", "anchors": ["dolfyn/rotate/vector.py:53-122", "dolfyn/rotate/vector.py:209-247", "dolfyn/rotate/rdi.py:40-66"]}
{"id": "C170", "title": "Cleaning again, or in another order, changes nothing", "statement": "Applying a cleaning step a second time with the same arguments gives the same dataset, and removing cells of low correlation and cells beyond the surface gives the same in either order.", "quantifier": "all cells, thresholds, rotation matrices with an inverse, integer and float arrays, records of any length, window lengths, masks and gaps", "why_tests_cant": "Whether a step is idempotent or commutes with another depends on every value and gap of a record; tests run each step once on a stored file", "anchors": ["dolfyn/adp/clean.py:181-246", "dolfyn/adp/clean.py:249-344", "dolfyn/adp/clean.py:377-434", "dolfyn/adv/clean.py:116-184"]}
{"id": "C171", "title": "A setting that changes within a Signature file is announced", "statement": "If the values of a setting (cell size, blanking distance, ambiguity velocity, coordinate system, wake-up state, orientation, processor state) are not the same in all pings of a Signature file, reading the file gives a warning, and the processor states are those of the file.", "quantifier": "all files, numbers of pings, values of the settings and positions of the pings that differ", "why_tests_cant": "Whether a warning comes depends on how often every value occurs, over all possible distributions of values; tests read files with constant settings", "anchors": ["dolfyn/io/nortek2_lib.py:387-397", "dolfyn/io/nortek2_lib.py:454-479", "dolfyn/io/nortek2.py:515-553"]}
{"id": "C172", "title": "A long record can be processed in pieces", "statement": "If a record is cut at the end of an averaging bin and the two pieces are averaged separately, the results one behind the other are those of the whole record: means, variances, standard deviations, turbulent kinetic energy, Reynolds stresses, turbulence intensity and spectra.", "quantifier": "all records (with gaps), lengths, bin lengths, numbers of bins before the cut, noise levels and spectral estimators", "why_tests_cant": "The claim relates three runs for every cut; tests process one file as a whole", "anchors": ["dolfyn/binned.py:163-228", "dolfyn/binned.py:230-352", "dolfyn/binned.py:360-407", "dolfyn/velocity.py:923-1045", "dolfyn/adv/turbulence.py:52-95"]}
{"id": "C173", "title": "A record that cannot be read costs nothing but itself", "statement": "If a Nortek file contains an intact record of a kind or type the reader does not know, the record is skipped: every other record is read and stored as if the unknown one were not there.", "quantifier": "all files of complete records, places and contents of the unknown record; all IMU types", "why_tests_cant": "Test files contain known records only; the claim compares two runs for every place and content", "anchors": ["dolfyn/io/nortek.py:361-378", "dolfyn/io/nortek.py:401-422", "dolfyn/io/nortek.py:897-1036", "dolfyn/io/nortek.py:1264-1270"]}
{"id": "C174", "title": "Raw altimeter pings of a Signature are read with all their samples", "statement": "The raw altimeter records of an AD2CP file, each with the number of samples of the first one, are read with all the values the instrument wrote, and the samples appear in the dataset as the values divided by 256; a record with another number of samples is refused.", "quantifier": "all combinations of optional data, numbers of beams, cells and samples, all values, all numbers of records and whatever stands between them", "why_tests_cant": "The test file has one arrangement of data and one number of samples; the size of a record depends on all of them", "anchors": ["dolfyn/io/nortek2.py:294-334", "dolfyn/io/nortek2.py:404-412", "dolfyn/io/nortek2_defs.py:20-27", "dolfyn/io/nortek2_defs.py:61-111", "dolfyn/io/nortek2_defs.py:310-369"]}
{"id": "C175", "title": "Everything a Signature measures is in the dataset", "statement": "Reading an AD2CP file makes a dataset in which every quantity recorded by every record type of the file is a variable, under its name and the tag of the record type.", "quantifier": "all combinations of record types and of the optional data of each", "why_tests_cant": "Test files have a handful of configurations; each combination takes another way through the sorting of the variables", "anchors": ["dolfyn/io/nortek2.py:404-663", "dolfyn/io/nortek2_lib.py:10-33", "dolfyn/io/nortek2_defs.py:178-369"]}
{"id": "C176", "title": "Saving does not change the data in memory", "statement": "After save the dataset in memory has the variables and values it had before, and saving it again writes the same file. (False: double-precision variables in memory become single precision, the parts of the first complex variable appear as variables, and the file of a second save has that variable in single precision.)", "quantifier": "every dataset, with any variables in any order", "why_tests_cant": "which variables are changed depends on the order of the variables and on where the first complex one is; tests compare the loaded file, not the dataset that was saved", "anchors": ["dolfyn/io/api.py:136-204"]}
{"id": "C177", "title": "Averages stay usable when the raw data is corrected for motion", "statement": "Averages made from a dataset can be rotated between frames, and give rotated averages, whatever is done to the raw dataset afterwards. (False: averages and raw data share the list of rotated variables; once the raw data is corrected for motion every rotation of the earlier averages fails with a missing key, after having turned their vectors under the old label.)", "quantifier": "every list of variables, every raw dataset that can be corrected, all averages with the listed variables, both directions, all orientation matrices", "why_tests_cant": "the failure depends on the order of averaging and correcting, and the list is shared invisibly through the attributes; tests average after correcting or not at all", "anchors": ["dolfyn/binned.py:119-142", "dolfyn/adv/turbulence.py:30-60", "dolfyn/adv/motion.py:461-511", "dolfyn/rotate/vector.py:53-122"]}
{"id": "C178", "title": "Corrected velocity is raw velocity plus motion in every frame", "statement": "After correct_motion, and after any further rotations of the dataset, vel equals vel_raw + velrot + velacc sample by sample.", "quantifier": "every dataset that can be corrected, both choices of frame of the result, any number of later rotations with any matrices", "why_tests_cant": "the four variables are rotated one by one through a list of names, partly inside the correction and partly later; tests compare stored results in one frame", "anchors": ["dolfyn/adv/motion.py:461-511", "dolfyn/rotate/vector.py:113-118"]}
{"id": "C179", "title": "Turbulence results follow the units of velocity and length", "statement": "When velocities and lengths are given in other units (for example cm/s and cm in place of m/s and m), every result is the same quantity in the new units: means scale with the unit, turbulent energy, stresses and dissipation rates with its square, friction velocity, Doppler noise and integral length scale with the unit, and turbulence intensity and shear do not change. (False of the structure-function dissipation of a profiler, whose value does not change at all.)", "quantifier": "every positive factor, all records with missing samples anywhere, all bin lengths including fractional ones, all spectra, frequency ranges, noise levels and profiles", "why_tests_cant": "a wrong exponent or a noise level in the wrong power gives plausible numbers in the one unit that tests use", "anchors": ["dolfyn/adv/turbulence.py:52-95", "dolfyn/adv/turbulence.py:180-581", "dolfyn/adp/turbulence.py:9-176", "dolfyn/adp/turbulence.py:594-847", "dolfyn/velocity.py:923-1045"]}
{"id": "C180", "title": "Attributes survive saving and loading", "statement": "A dataset that is saved and loaded has the attributes it had, and rotating it runs through the same variables. (False: lists with one element come back as the element, empty lists as empty arrays and arrays as lists; the list of rotated variables comes back for any number of names.)", "quantifier": "every attribute: numbers, texts, lists of numbers or texts of any length, arrays; any number of rotated variables", "why_tests_cant": "the cases are lists of length zero and one, which most test files do not have", "anchors": ["dolfyn/io/api.py:198-249", "dolfyn/rotate/base.py:28-37", "dolfyn/rotate/vector.py:113-118"]}
{"id": "C181", "title": "Noise of a single beam is taken off where it belongs", "statement": "calc_tke of one beam of a profiler is the variance of each cell in each bin, and noise levels given per cell (as documented) or per bin are squared and subtracted in that cell or that bin. (False: levels per cell are refused or land in the bins, and levels per bin are refused when there are more bins than cells.)", "quantifier": "every number of cells, bins and samples; noise as a number, per bin, per cell, or per cell and bin; any velocities", "why_tests_cant": "whether noise is accepted depends on how the number of cells compares with the number of bins, because the shape check compares tuples entry by entry; tests use one data set", "anchors": ["dolfyn/velocity.py:971-1045"]}
{"id": "C182", "title": "A steady current does not change the turbulence", "statement": "Adding a constant velocity to a record, for profilers a different one in each cell or beam, changes the bin averages by that velocity and nothing else: turbulent energy, variances, stresses of point velocimeters and of four or five beams, structure functions, their dissipation, spectra, cross spectra, coherence and phase stay the same. With detrending the same holds of a velocity that changes linearly. (False of the last when samples are missing.)", "quantifier": "every record, bin length (fractional ones included), noise level and pattern of missing samples; every constant and linear drift", "why_tests_cant": "a property of pairs of calls for all records and currents; the tests run each function once on one file", "anchors": ["dolfyn/binned.py:163-352", "dolfyn/velocity.py:923-1045", "dolfyn/adv/turbulence.py:52-95", "dolfyn/adp/turbulence.py:331-524", "dolfyn/adp/turbulence.py:653-809", "dolfyn/tools/psd.py:89-434", "dolfyn/tools/misc.py:25-56"]}
{"id": "C183", "title": "Rotating data with missing components", "statement": "When some components of a sample are missing, rotating to another coordinate system gives at every component that is still present the value that would be obtained with the missing ones filled in by anything, and exactly the components that are mixed with a missing one become missing: all of a vector between beam, instrument and earth coordinates, the three velocities but not the error velocity of a Teledyne RDI instrument, only the two horizontal components between earth and principal axes. Rotating there and back returns every measured component. (The last is false: the other components of such a sample are lost.)", "quantifier": "every dataset, pattern of missing values, pair of coordinate systems and instrument; every choice of numbers in place of the missing values", "why_tests_cant": "a property of all patterns of missing values and of sequences of rotations; the tests rotate complete data", "anchors": ["dolfyn/rotate/api.py:25-119", "dolfyn/rotate/base.py:99-144", "dolfyn/rotate/vector.py:7-186", "dolfyn/rotate/signature.py:9-128", "dolfyn/rotate/rdi.py:7-70"]}
{"id": "C184", "title": "The correlation filter in every coordinate system", "statement": "correlation_filter may be called on data in any coordinate system: afterwards the dataset is in the system it was in, every value it leaves is the value it had, a sample with all correlations above the threshold keeps all its components, a sample with a screened beam loses that beam (in beam coordinates) or the whole velocity (in all others), and variables other than the velocity keep their values. (False of ship coordinates, where every call raises.)", "quantifier": "every dataset, threshold, correlation (missing ones included), pattern of missing values, instrument and coordinate system", "why_tests_cant": "a property of all data and of rotations there and back; the tests filter one file in one coordinate system", "anchors": ["dolfyn/adp/clean.py:248-303", "dolfyn/rotate/api.py:25-119"]}
{"id": "C185", "title": "Detrending works line by line along any axis", "statement": "detrend accepts arrays with any number of axes and any axis, counted from either end: every line along that axis is detrended on its own, as if it were the only one, and the shape is kept. The argument is changed only when in_place is asked for and it is an array; then it becomes the result. Axes that do not exist raise IndexError and change nothing. (False of integer arrays: all are refused with TypeError.)", "quantifier": "every shape, number of axes, axis, content (missing values included), in_place or not", "why_tests_cant": "a property of all shapes and axes; the tests detrend one array along its last axis", "anchors": ["dolfyn/tools/misc.py:25-55"]}
{"id": "C186", "title": "A dataset without a list of vectors is rotated as if it listed vel", "statement": "When the attribute rotate_vars is missing, rotate2 warns and does to the dataset exactly what it does with the list [vel]: the same result or the same exception. (True between all frames except beam. False of every rotation out of or into beam coordinates: none returns, AttributeError is raised where the list would have made it succeed.)", "quantifier": "every instrument, dataset, starting frame and target frame", "why_tests_cant": "a property of all pairs of frames and instruments; the tests only rotate datasets written by the readers, which always have the list", "anchors": ["dolfyn/rotate/base.py:28-37", "dolfyn/rotate/base.py:126-131", "dolfyn/rotate/vector.py:82", "dolfyn/rotate/vector.py:160", "dolfyn/rotate/signature.py:44", "dolfyn/rotate/rdi.py:47", "dolfyn/rotate/api.py:25-119"]}
