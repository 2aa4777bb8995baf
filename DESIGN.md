# Formal model of lkilcher/dolfyn in Lean 4

This directory holds a Lean 4 model of the Python package in `/repo` (pinned commit), the
properties a user of the package relies on (`properties.jsonl`), and kernel-checked proofs.

## Layout

* `lean/Verif/Model/*.lean` – shallow models of the Python functions, branch by branch. Every
  definition cites the file and lines it models and says where it simplifies.
* `lean/Verif/Spec/*.lean` – small specifications written without using the model
  (textbook definitions: mean, population variance, line residuals, DFT sums, runs, ...).
* `lean/Verif/Lemmas/*.lean` – helper lemmas.
* `lean/Verif/Props/*.lean` – the property theorems and, beside each one, an `example` that
  meets its hypotheses on a concrete non-trivial input.
* `MANIFEST.json` – property → status → theorem names.
* `seeded/LOG.jsonl` – wrong programs tried against the theorems.

## Conventions of the model

* Python exceptions are values: `Except Err α`. A branch which raises in Python returns the
  corresponding error in the model, including errors Python raises implicitly
  (`IndexError`, `KeyError`, `TypeError`, `ValueError` on shape mismatch, ...).
* Floating point numbers are exact elements of ℚ or ℝ (ℝ where sin/cos/sqrt/powers occur, ℂ for
  spectra), except where a property is about rounding: `fl64` and `fl32` (Model/Float64) round a rational to
  double and single precision, to nearest and ties to even, with unlimited exponents, and
  the models of times, positions, paired bins, separations of structure functions, stored integers and variances
  (TimeF, TimeBin, RdiNav, Float64, Turb, Single, VarBin, VnoFile) apply them after every operation of the code.
  Overflow and infinities are not modelled. `NaN` is `Option.none` where a property is about missing data.
* numpy arrays are lists or functions on an index range. Multi-dimensional arrays are modelled by their
  1-D slices where the code only loops over slices (`slice1d_along_axis` itself is modelled for every rank).
* xarray datasets are records or association lists holding only the variables and attributes that the modelled function reads or writes.
* Mutable state (file position, counters, in-place edits) is threaded explicitly.
* When the code does not have the property, the negation is proved on a concrete witness
  (`..._fails`/`not_...`) and the part that does hold is proved under its exact side condition with a
  name ending in `_partial`.

## Trusted base

* Lean 4.33.0 kernel; the only axioms allowed are `propext`, `Quot.sound` and `Classical.choice`
  (Mathlib's real and complex numbers use them). No `sorry`, no `native_decide`, no `bv_decide`, no own axioms.
* That each model definition means what the cited Python lines mean. This was established by reading only:
  the package cannot be executed here.
* Semantics assumed for numpy/xarray/scipy/struct primitives as stated in the comment of the model definition that uses them.
  Examples: `np.einsum`, `np.linalg.inv` (exact inverse), `np.fft.fft` (exact DFT), `struct.unpack`, integer `//` and `%`
  as floor division, `int()` as truncation.
* Not modelled at all: plotting, netCDF4/scipy `.mat` file formats (only the attribute collapsing that `load` depends on),
  logging, warnings, `_version.py`, memory mapping, rounding where the models named above do not apply it, the digital filters of scipy
  (`sosfiltfilt`, `medfilt2d`) other than by the algebraic facts stated.

## Plan per property

* **C01 Epoch time and datetime64 convert back and forth without loss** – Model/Time: nanosecond counts as ℤ, epoch seconds as ℚ; `int` truncates, `%` floors. Round trip proved for t ≥ 0 and whole seconds; witness at −0.5 s.
* **C02 MATLAB datenum conversion round trip** – Model/Time: date = (ordinal, µs of day); datenum as ℚ; half-even rounding. Round trip to the rounded value by integer arithmetic.
* **C03 Instrument clock fields decode to the encoded date part** – Model/Time, Model/Nortek: bytes as ℕ<256; exact inverse of BCD encoding, year pivot.
* **C04 Rotating a dataset there and back restores it** – Model/Rotate: dataset record with frame, vectors and matrices over ℝ; single steps as linear maps; round trip by composing step inverses.
* **C05 rotate2 ends in the requested frame or raises** – Model/Rotate: the while loop as a fuel-indexed state machine over frames; termination, path and final frame by cases on chain positions; ship-frame negation.
* **C06 Frame rotations preserve speed** – Orthogonal matrices preserve dot products (Mathlib matrices).
* **C07 Euler angles and orientation matrices correspond** – Trigonometric identities over ℝ; arctan2 as Complex.arg, arcsin as Real.arcsin.
* **C08 Instrument-reported angles give proper rotations** – As C07 for the Nortek and RDI formulas.
* **C09 set_declination rotates the earth frame by exactly the declination change** – set_declination on the dataset record; composition of planar rotations.
* **C10 inst2head matrix can be set only once and is applied exactly once** – set_inst2head_rotmat on the dataset record.
* **C11 RDI beam geometry is recovered** – 4×4 matrices over ℝ, `field_simp`.
* **C12 Signature four-component rotation is consistent** – 4×4 extension of a 3×3 matrix; Mathlib inverse.
* **C13 Compass/cartesian angle conversion** – Python floor-mod over ℚ/ℝ; exists integer multiple of 360.
* **C14 Speed and direction reconstruct the horizontal velocity** – Complex.arg for np.angle; sin/cos of arg.
* **C15 Principal heading ignores flow reversal and follows rotation** – Complex numbers; doubled-angle z²/|z| is even in z.
* **C16 Quaternion orientation matrices are rotations** – Quaternion → matrix formula of scipy.
* **C17 Binning reshapes without inventing, losing or reordering samples** – Lists; index arithmetic of reshape with padding.
* **C18 Fractional bin lengths never read outside the data** – ℚ index arithmetic; witness and exact side condition.
* **C19 Bin averages, variances and standard deviations are those of the bin's samples** – Finite sums over the bin.
* **C20 Detrending removes exactly the least-squares line** – Finite sums; normal equations; optimality by completing the square.
* **C21 Bins handed to the spectral code never exceed the bin length** – Case analysis of the constructor.
* **C22 A per-call bin length is honoured by spectral estimates** – Shapes of output and data; witness of mismatch; correct when override equals n_bin.
* **C23 FFT segments stay inside the data, overlap by at least half and are averaged with the right count** – ℕ division; segment starts as a list; witness of a wrong divisor.
* **C24 Spectral frequencies** – fftfreq as exact ratios.
* **C25 Power spectra are non-negative, scale quadratically and ignore linear trends** – DFT as a finite complex sum; detrend linear.
* **C26 Integrating a power spectrum gives the variance** – Orthogonality of roots of unity.
* **C27 Coherence lies between 0 and 1** – Cauchy–Schwarz for finite complex sums; witness above 1.
* **C28 Phase angle is averaged over the segments of both signals** – Exact formula for what is computed; witness; single-segment case.
* **C29 Cross spectra are Hermitian** – Conjugation of finite sums.
* **C30 Noise-corrected spectra stay non-negative** – List map with minimum.
* **C31 Iterating 1-D slices visits each slice exactly once** – Odometer invariant; equals the lexicographic product list.
* **C32 Contiguous segments are found exactly** – Runs of a Boolean list; correct for masks starting with False or with one run; witness otherwise.
* **C33 Gap filling changes only gaps within the limit** – Option-valued lists; pointwise characterisation by nearest valid neighbours.
* **C34 Timestamps are completed without gaps** – On top of C33.
* **C35 Spike cleaning only touches flagged samples** – State machine over the scan; arbitrary interpolation function constrained to fill only missing entries.
* **C36 Range and spike masks flag exactly the offending samples** – Pointwise.
* **C37 Phase-space despiking terminates and never hits its loop limit** – Loop with an arbitrary deterministic threshold function.
* **C38 Threshold masks for profilers blank exactly the bad cells** – Pointwise; idempotence.
* **C39 Cells beyond the surface are blanked** – Pointwise; unit error witness.
* **C40 Depth from pressure** – Field arithmetic.
* **C41 File type detection is a function of the first bytes** – Byte prefixes.
* **C42 Output file names keep the requested extension** – Lists of characters.
* **C43 Corrupt Nortek records are rejected** – Words mod 65536; exact characterisation of acceptance; negation.
* **C44 Resynchronisation after bad Nortek data** – Loop over words; first-match characterisation.
* **C45 AD2CP records are decoded field by field and corruption is detected** – Field list codec; round trip by induction on the field list; checksum injective in each word.
* **C46 The AD2CP index lists every data record at its true position** – File as list of records; loop with positions; induction.
* **C47 Reading an ensemble range equals slicing the full read** – Ensemble loop over record list.
* **C48 Bit fields are decoded without overlap or loss** – ℕ bit arithmetic.
* **C49 Collapsing configuration vectors** – Lists with counts.
* **C50 The RDI reader stays in step with the file** – Byte-position state machine; each reader's advance; induction over blocks.
* **C51 Every complete RDI ensemble is read** – search loop over the byte stream; witness with one/two ensembles.
* **C52 GPS duplicates are removed consistently** – Sorted unique with first index.
* **C53 User-supplied declination is applied to RDI data** – set_declination on record; negation for non-zero software value.
* **C54 Trailing missing samples are trimmed and nothing else** – Option lists; correct when missing samples are trailing; negation.
* **C55 Saving and loading keeps complex variables** – Dataset as association list; attribute collapsing; negation.
* **C56 Averaging of bursts of angles** – Complex.arg of mean phasor.
* **C57 Turbulent kinetic energy and stresses obey Cauchy-Schwarz** – Finite-sum Cauchy–Schwarz.
* **C58 Vertical shear is exact for linear profiles in both orientations** – Finite differences; the tuple multiplication as an error value.
* **C59 Four-beam stresses recover u'w' and v'w'** – Covariance bilinearity.
* **C60 Five-beam turbulence at zero tilt recovers the velocity variances and stresses** – Covariance bilinearity; witness for the wrong formulas.
* **C61 Dissipation from an inertial-subrange spectrum** – Real powers.
* **C62 Structure-function dissipation fit** – Least squares slope; witness.
* **C63 Rotational motion correction is the cross product with the lever arm** – Cross product.
* **C64 Motion correction adds the two motion terms exactly once** – Record of dataset with attributes.
* **C65 Burst duty cycles are detected** – Ordered field; negation.
* **C66 Integral length scale uses the first crossing** – List search.
* **C67 Averaged datasets carry consistent settings** – Association lists.
* **C68 Missing orientation at the end of a record** – List with missing entries; the last complete entry is repeated.
* **C69 Filling with ensemble means** – Matrix of windows with an appended partial window; index arithmetic by division with remainder.
* **C70 Surface detection from echo amplitude** – Argmax and last-drop by recursion; the failures proved for general sizes.
* **C71 Phase-space threshold** – Real arithmetic with atan2 as complex argument.
* **C72 Median filter blanks wide gaps** – Window count bound by the kernel length; median as parameter.
* **C73 Turbulence intensity of each bin** – calc_ti in Model/Turb.lean; value theorem for complete records, negation for the threshold
* **C74 Doppler noise level** – calc_doppler_noise in Model/Turb.lean; bounds of a mean over the band
* **C75 Slope of the turbulence cascade** – check_turbulence_cascade_slope in Model/Turb.lean; least squares recovers exact lines
* **C76 Friction velocity from a linear stress profile** – calc_ustar_fit in Model/Turb.lean
* **C77 Motion correction at separate probes** – separate_probes branch in Model/Motion.lean; negation with the real probe geometry
* **C78 Gravity and rest do not enter the motion correction** – acclow and velacc in Model/Motion.lean with the filters as parameters
* **C79 Nortek records are stored at the right sample** – byte-level model of the record loop; induction over records; termination by the length of the remaining stream
* **C80 Reading the first pings gives a prefix of the whole** – induction over the record loop with the same stream
* **C81 AWAC wave records can be read** – the record readers of the byte-level model; the negation is proved for every record
* **C82 Nortek dates and flag words are decoded digit by digit and bit by bit** – arithmetic over all values
* **C83 IMU axes are converted by a proper rotation** – 3x3 matrix algebra
* **C84 Vector sample times advance by the sampling interval** – least-squares line through the exact clock; the short cases give the negation
* **C85 The up/down flag follows the status bits** – case analysis of the clean-up of the interpolated bit
* **C86 Pressure is combined from its parts without loss** – arithmetic
* **C87 The index and the data reader agree on every AD2CP record** – Field i of a record is decoded at the sum of the sizes before it (adRead_field); the index offsets are compared with it.
* **C88 Ensembles of an AD2CP file** – Induction over the index when the numbers never decrease and grow by at most one; counterexample with a raw altimeter record, which has its own counter.
* **C89 RDI ensemble numbers identify the ensembles** – `rdNumber` models the formula; arithmetic proof of the value for every number, monotonicity, and the witness at the overflow.
* **C90 Reading an RDI file without a count reads all of it** – `rdInit` models `__init__`, `code_spacing`, `read_hdr` and `check_for_double_buffer`; a scanning lemma shows that the next header is found over bytes without 7F, induction over the headers gives the mean length, and C51 gives the number read.
* **C91 Cropping an AD2CP file keeps whole records** – Model adCrop on byte lists, with the index of C46; induction over the records of the file shows the cut positions are record boundaries; concrete witness for the last ensemble.
* **C92 AD2CP clock readings become exact times** – Model adPingTime with the proleptic Gregorian day count; the day count is characterised by its successor relation for every year, and the order of times is proved lexicographic by bounding the day number within its year.
* **C93 Skipped pings do not shift ensemble numbers** – Model adCheckIndex; positions of a type are computed by induction over the ensembles, consecutive positions are at most N apart exactly when no ensemble lies between; counting the bad steps gives the ensemble number. Concrete witnesses for the three false cases.
* **C94 Autocovariance is that of the bin** – Model of calc_acov with exact real arithmetic (Model/Cov.lean): reshape with half-bin padding, detrending by the mean, np.correlate 'valid'. Value at every lag as explicit sum; offset invariance; lag zero; counterexamples.
* **C95 Cross-covariance compares the series at the stated lag** – Model of calc_xcov (Model/Cov.lean); explicit sums; Cauchy-Schwarz bound for the normalised version; label counterexample.
* **C96 Coherences and cross spectra compare the same span of time** – Model of the binning and row selection with the estimator as parameter (Model/Csd.lean); proved for all rate ratios for coherence, for equal lengths for cross spectra; counterexample theorems.
* **C97 Every variable read gets its own time axis, dimensions and units** – Model/CreateDs.lean: per-variable dimension choice as state machine over the stale tag variable, plus the consistency check of xr.Dataset.from_dict. Proved for all names by lemmas on infixes; order independence by permutation; counterexamples.
* **C98 Averaging a dataset averages every measured variable on its own time axis** – Model/DoAvg.lean: the loop over variables with its bare except as a dropped variable, built on the binMean/binVar model. Induction over the list of variables; counterexample theorems for static variables and short record types.
* **C99 A MATLAB file gives back the dataset** – Model/MatFile.lean: shapes squeezed by scipy, then the _create_dataset model (C97). Round trip by equality of the dictionaries; counterexamples for length-one axes and derived profiles.
* **C100 Settings in the userdata file reach the data** – Model/UserData.lean: JSON objects as association lists, file system as function. Lookup lemmas; induction over the entries; counterexample theorems.
* **C101 One configuration per AD2CP record type** – Props/Ad2cpConfig: config_of_all, config_found (both directions of agreement); config_bt_false refutes it for bottom track.
* **C102 The last AD2CP ensemble is read exactly when it is complete** – Props/Ad2cpConfig: last_whole_spec (most frequent size, any file), last_whole_uniform (ensembles of one size), last_whole_false (ensembles of several sizes).
* **C103 Header commands are found under their names** – Props/Ad2cpHead: head_plain, head_get, head_read by induction over the lines, items and entries; head_get_false and head_repeat_false refute it for names beginning with G, E or T and for repeated GET commands.
* **C104 Ranges, sampling rate and beam matrix come from the plan** – Props/Ad2cpHead: reduce_burst, range_cells; reduce_avg_false (rate is an interval when averaged profiles are present) and reduce_b5_false (no burst or averaged profiles).
* **C105 Dual-profile files are split without loss** – Props/Ad2cpSplit: split_vars (partition, rotation lists); split_equal_false (profiles of one length cannot be read); split_dec_false (declination not applied to the second dataset).
* **C106 Dissipation of a point velocimeter from the structure function** – Props/AdvDissip: sf_exact, sf_scale (with missing samples), sfLags_mem; sf_high_false refutes the last part.
* **C107 Dissipation by the method of Trowbridge and Elgar** – Props/AdvDissip: te01_exact, te01Int_pos (the integral is positive for every intensity and angle); te01_hz_false (result too small by 2 pi in Hz).
* **C108 The Nortek reader makes room for every sample** – Props/NortekSize: vector_room, awac_room (induction over the records, any length); awac_room_false (uneven spacing), vector_slow_false (rates below 1 Hz).
* **C109 Numbers in Nortek records are decoded as written** – Model/NortekFields: `struct.unpack` on byte lists; the record layout of the manual is written as an encoder and decode(encode) is proved for every value. Negative AWAC pitch, roll and temperature and negative Vector temperature are proved wrong (unpacked unsigned).
* **C110 AWAC ranges and head matrix** – Model/NortekFields: rounding as any nearest-integer function; bound on the distance from the nominal range by the triangle inequality; drift shown on a witness.
* **C111 Tilt is the inclination of the instrument's axis** – Model/Orient, Props/Tilt: cosine of the arctangent; exact for the RDI attitude, an underestimate for the Nortek attitude (proved, with a witness at 45 degrees).
* **C112 Vectors of Signature files are registered for rotation in their own frame** – Model/Ad2cpReorg: names as character lists; membership and uniqueness proved for any subset of the variables, after comparing all possible names with each other.
* **C113 Empty slots of dual-profile files are removed** – Model/Ad2cpReorg: the kept slots are one strictly increasing list used for all variables.
* **C114 Epoch times and dates convert faithfully** – Model/TimeMore + Props/TimeMore: exact rationals with half-even rounding to microseconds; rounding lemmas, induction over the list.
* **C115 Printed times can be read back** – Model/TimeMore: decimal digits padded with zeros; parsing inverts printing, by induction on the width.
* **C116 Component labels agree with the frame** – Model/Labels + Props/Labels: label tables and xarray's length check; case analysis over makes and frames. Refuted for three-beam Signatures and for forced=True.
* **C117 Spectra in Hz and in rad/s describe the same energy** – Model/VelPsd + Props/VelPsd: the estimator is homogeneous in the sampling rate; scaling commutes with the noise floor.
* **C118 Spectra, frequencies and times of calc_psd belong together** – Model/VelPsd: xarray's length check included. Proved without override; refuted with one: any override that changes the number of bins raises.
* **C119 Turbulent energy and intensities of the accessor** – Model/TurbAcc + Props/TurbAcc: from the Cauchy-Schwarz bound of C57. Refuted for missing values: xarray's sum gives 0.
* **C120 Cross spectra of the components of a point velocimeter** – Model/AdvCsd + Props/AdvCsd, as C117 and C118. Refuted for a per-call n_bin.
* **C121 Median filtering of the orientation** – Model/MedOrient + Props/MedOrient: scipy's zero-padded median as the middle of the sorted window; counting argument. Refuted: quaternions of alternating sign give a zero quaternion at the ends, which raises.
* **C122 TRDI data read from file are the recorded numbers in physical units** – Model/RdiVals.lean carries the reader's memory through the loops of Model/Rdi.lean. Files are built from ensembles by an independent encoder (Spec.record, Spec.cellRecord); induction over ensembles gives the column of each, and each value is looked up there. Refuted: bottom track missing in an ensemble repeats the previous ensemble, and bad bottom-track velocities are not masked.
* **C123 A TRDI file becomes one dataset with the recorded variables, times and ranges** – Model/RdiCfg.lean assembles the dataset from the columns of Model/RdiVals.lean. Props/RdiCfg.lean: the set of names by induction over blocks and ensembles, the coordinate from the setup record of an independent encoder. Refuted: files with a single ensemble (or nens=0) raise UnboundLocalError, and a file whose first ensemble has an invalid clock raises IndexError.
* **C124 The configuration of a TRDI dataset is the recorded setup of the instrument** – Setup record Spec.RdSetup with an independent encoder; decoding proved field by field for all values, bits by exhaustive kernel computation over the byte. The dataset gets the setup of the last ensemble read (induction over ensembles). Refuted: the fourth beam-angle code ('other') raises IndexError.
* **C125 Cross spectra of records of different lengths compare the same spans in the order given** – Model/PsdQuasi.lean. Positions of the pairs by arithmetic of the steps, result as a sum over the pairs, for the shorter record first. Refuted: with the longer record first the arguments are exchanged silently, so the phase has the wrong sign, and the noise levels of coherence go to the wrong record.
* **C126 Translational motion is the high-passed integral of the acceleration** – Model/Motion.lean (velAcc, cumTrap, checkFiltfreqs), filters as parameters; trapezoid sums by induction on the sample.
* **C127 correlation_filter does not edit correlation or amplitude** – Refuted with a concrete cell; what the code writes instead (NaN, or 0 in integer arrays) is proved for all cells.
* **C128 The setup recorded in a Nortek file is reported as it was chosen** – Model/NortekInit.lean: the three decoders at their byte positions. Props/NortekInit.lean has an independent description of a setup and of the records; decoding the record of a setup gives back the setup, field by field. Refuted: burst_mode is `str(bool(~bit))` and reads True for every file.
* **C129 Nortek files open as the instrument that wrote them** – Model/NortekInit.lean (nkEndian, nkCfgRec, nkInit). Composition of the decoders of C128 along the file; necessary signature by cases on the first bytes. Refuted: big-endian files never open, Vectrinos with the number directly behind VNO get a 3 x 3 matrix, bursts at 1 Hz and below are described as one sample long.
* **C130 Filling gaps keeps the data and respects maxgap** – Model/FillGaps.lean: xarray's limit by counting NaN in the window that ends at a sample; the interpolator is a parameter. Exact description of what is filled, by comparing the window with the gap. Refuted: the first maxgap samples of longer gaps are filled, too.
* **C131 Saving writes the encoding asked for and leaves the dataset alone** – Model/SaveEnc.lean: dictionaries as association lists, the sharing of the encoding dictionaries by returning the changed variables. Entry by entry description of the result. Refuted: the user's encoding is discarded, and the encodings of the caller's dataset change.
* **C132 The ADV averaging tool describes its result and leaves its input alone** – Model/SaveEnc.lean (advCallAttrs). Refuted for the input: attributes named after the configuration are removed from it.
* **C133 Beam stresses do not depend on the frame the data is in** – Model/StressCall.lean on top of the rotation model and the stress formulas. Composition with the rotation round trip gives independence of the frame and, for Signatures, the true covariances end to end. Refuted: the dataset is left in the beam (or instrument) frame; the beam_angle argument is ignored when the dataset has one; the noise of the binner is never used.
* **C134 Binned results carry the coordinates of their own dimensions** – Model/Coords.lean. Proved for calc_ti and calc_tke; for the others if the time dimension is called time. Refuted for time_b5 and the like: coherence and covariances raise.
* **C135 Navigation data recorded with an ensemble are reported as recorded** – Model/RdiNav.lean decodes blocks; the records are described field by field in Props/RdiNav.lean. Values proved; refuted: negative pitch and roll, equator and zero meridian, date of position sentences, ensembles without sentence.
* **C136 A missing sample spoils only the spectra of the bins that read it** – Model/PsdNan.lean: the estimator on Option-valued records. Locality proved without noise level; refuted with one, where the minimum over the whole output is NaN.
* **C137 TRDI files with changing numbers of depth cells** – Props/RdiCells.lean on Model/Rdi.lean, RdiVals.lean, RdiCfg.lean. Values of present cells by induction over the ensembles, with growth of the arrays; refuted for missing cells (values of the ensemble before), for the range (setup of the last ensemble) and for data types that first occur after a growth (ValueError).
* **C138 Five-beam turbulence corrects for small tilts** – Props/FiveTilt.lean on Model/Turb.lean and Model/Orient.lean. Closed form of the results in the moments of the instrument frame, derivative with respect to the tilt at zero through the orientation matrices of the package. Exact to first order for the variance along x; refuted for the stresses (cos(th)*2 for cos(th)**2, and the sign of the pitch of TRDI instruments).
* **C139 Turbulent energy and spectra do not depend on the frame** – Props/FrameInv.lean on Model/Rotate.lean, Model/Turb.lean and Model/VelPsd.lean. Steps of a rotation as one orthonormal matrix; linearity of detrending and of the Fourier transform; invariance of trace and of the norm.
* **C140 Averaging and rotating commute** – Props/AvgRotate.lean on Model/Rotate.lean and Model/Binned.lean. The relation between a dataset and its average is kept by each step of a rotation. Refuted for beam coordinates: the averaged dataset has no beam matrix. The hypothesis is needed (avg_rotate_moving_false).
* **C141 Structure functions are complete and labelled by their cells** – Model/SfCall.lean, Props/SfCall.lean. Every entry of the result; normal equations of the fit. Refuted: entries are stored at the upper cell, so the label differs from the documentation; long ranges raise ValueError.
* **C142 AD2CP data come in the units of their labels** – Model/Ad2cpSci.lean, Props/Ad2cpSci.lean. From the bytes of a record to the converted values, for every configuration, against a table of units. Refuted for the magnetometer of bottom-track records and for water below 0 degrees.
* **C143 An AD2CP file is read into the right columns in physical units** – Model/Ad2cpFile.lean, Props/Ad2cpFile.lean. Composition of the models of the index, its correction, the configuration, the readers, the loop and the conversion, from the bytes of the file to the values of a column; induction over ensembles and records.
* **C144 Reading an AD2CP file again gives the same result** – Model/Ad2cpIndexFile.lean, Props/Ad2cpIndexFile.lean. Bytes of the index file, round trip of its entries. Refuted: a changed file is read with the old index, a failed reading leaves an index that is used later, index files without version never work.
* **C145 After damaged bytes the TRDI reader resumes at the next ensemble** – Model/Rdi.lean, Props/RdiResync.lean. Induction along the search loop; places where an ensemble begins are defined on the bytes. Refuted: one byte too many, a stray 7F 7F with a length beyond the file, and the ensemble in front of the damage.
* **C146 Reading a Vector file gives exactly the recorded samples** – Model/VecFile.lean, Props/VecFile.lean. The reading loop (C79), the storing of records, the conversions and the trimming are composed into one function from bytes to dataset; the recording is specified by its records. Invariant over the writes: a slot holds what the last record for it says. Refuted for files without IMU: the surplus slots stay.
* **C147 Reading an AWAC file gives exactly the recorded profiles** – Model/NkFile.lean, Props/NkFile.lean. The whole reader from the first byte: opening (C129), search for the spacing of the records byte by byte and room (C108), reading loop (C79), storing, units, trimming. The file is specified by its configuration and its records. Induction over the records.
* **C148 The printed summary of a dataset is right** – Model/Repr.lean, Props/Repr.lean. The loops over the names are modelled with their counter; closed form of the inner loop, induction over the patterns. Refuted where the code counts only names with wildcards, shows one too many, or fails without time.
* **C149 A Nortek file rotated to the earth frame uses the recorded attitude** – Model/NkEarth.lean (end of read_nortek), Props/NkEarth.lean. Composition of the whole-file theorems (C146, C147) with closed forms of the orientation matrices and of the rotations; the attitude is described by compass directions of the axes. Refuted where the heading passes north between two system records.
* **C150 A TRDI file rotated to the earth frame uses the recorded attitude** – Model/RdiEarth.lean (end of read_rdi), Props/RdiEarth.lean. Composition of the theorems on values and configuration (C122-C124) with closed forms of beam and orientation matrices, which are checked against the projection of a uniform motion on the beams. Refuted: the setup of the last ensemble is used for the whole file, and bad bottom tracks are rotated as data.
* **C151 A Signature file rotated to the earth frame uses the attitude recorded in the same ping** – Model/AdEarth.lean (end of read_signature), Props/AdEarth.lean. Composition of the theorem on the values of AD2CP files (C143) with closed forms of the rotations, which are checked against the attitude by compass directions. Refuted: the orientation of most pings is used for all of them; sensors are not rotated in files in earth coordinates, and are multiplied with the beam matrix in files of three beams in beam coordinates.
* **C152 A Vector file with an IMU rotated to the earth frame uses the attitude the IMU recorded** – Model/NkEarth.lean (vecOmat, vecImuVars, vecFinish), Props/VecImu.lean. Composition of the whole-file theorem on Vectors (C147) with closed forms of the rotations of all variables. Refuted: acceleration, rate of rotation and magnetic field are multiplied with the beam matrix in files in beam coordinates, and are not rotated in files in earth coordinates.
* **C153 read_signature turns the bytes of a Signature file into velocities in the earth frame, with the settings in its head** – Model/AdFile.lean (adCheckNortek, splitLines, adHeadLines, adReadSignature), Props/AdFile.lean. Composition of the theorems on the head (C103, C104) and on the pings (C151) at the level of bytes; induction over the lines of the text. The exceptions of C151 are inherited; a line without a comma makes the file unreadable.
* **C154 Reading a Vector file recorded in bursts gives the recorded samples with the times of their bursts** – Model/VecFile.lean, Model/NortekSci.lean, Props/VecBurst.lean. As C146; the times are fitted burst by burst, so a file is cut into blocks of the burst length, and the last block may be cut by the end of the arrays. Blocks without records have no times and are trimmed. Refuted for files without IMU whose last burst is not complete: it is filled up with entries nobody recorded.
* **C155 Despiking finds lone spikes of any height and does not depend on unit, sign or offset** – Model/Despike.lean, Props/Despike.lean: _phaseSpaceThresh as a whole, in real arithmetic with the cases 0/0 and x/0. Scaling is followed through mean, differences, standard deviations, tilt and axes; the lone spike by computing the ellipsoid of a unit spike.
* **C156 A gap in the record does not hide spikes elsewhere** – Model/Despike.lean, Props/Despike.lean: the recursion over the long gaps, the blocks, and NaN in a block. True of records that begin with a sample and have more than two long gaps, for the stretches between the long gaps; refuted otherwise.
* **C157 Blanking beyond the surface works on every variable of a dataset** – Model/CleanDs.lean, Props/CleanDs.lean: the list of variables, numpy's rule for a mask over the last two axes, the loop with its partial effects. True of datasets whose variables all have the axes of the mask; refuted for others (IndexError, half done in place), for variables with ranges of their own, and for a deployment height set after the depth was found.
* **C158 Times keep their instant through double precision** – Model/TimeF.lean repeats the conversions with every operation rounded (fl64, Model/Float64.lean); error bounds per binade, added up.
* **C159 Sound speed, temperature, pressure and attitude of a Signature ping are those its records contain** – Model/AdEnv.lean takes the columns that reading the file (Model/Ad2cpFile.lean) fills, scales and averages them; the values come from the records written, through the file theorems of C143; columns nothing was written to hold zeros.
* **C160 Cross spectra, coherence and phase of records with missing samples rest on complete data only** – Model/CsdNan.lean repeats the estimators with missing values; segment by segment they agree with the gap-free model (Model/Psd.lean, Model/AdvCsd.lean) or are missing.
* **C161 Opening and reading a file comes to an end, whatever it contains** – The loops of the readers are modelled with fuel (Model/NkFile.lean, Model/Ad2cp.lean, Model/Ad2cpRead.lean, Model/Rdi.lean, Model/RdiInit.lean). Progress of the position at every turn bounds the fuel by the length of the file; where a turn can stand still, a file is given for which no fuel suffices.
* **C162 Single precision keeps every recorded step** – Model/Single.lean gives the roundings of each way from an integer in the file to a float32 (products and quotients in double precision, in-place products in single precision). Relative errors are added up and shown to stay below half a step; the equality test with -32.768 is evaluated and separated from all other values by that bound.
* **C163 Times of averaged data are the mean times of the bins** – Model/TimeBin.lean: conversion to epoch seconds, sum, quotient and conversion back in double precision; the order of the additions (numpy sums in blocks and pairs) is any binary tree over the samples. Induction over the tree bounds the relative error by its depth; the conversions are those of C158.
* **C164 Reading a Vectrino file gives exactly the recorded samples** – Model/VnoFile.lean, Props/VnoFile.lean. As C147, with the times in double precision: each time is the previous one plus 1/fs, the time of the event record is added at the end. Induction over the records; the errors of the additions grow with the square of the number of samples. Refuted for files that end within a sample (its time is stored before its bytes are read), for files with a second event record, and for files without one.
* **C165 Variances of bins are right in single precision** – Model/VarBin.lean, Props/VarBin.lean. Every addition, subtraction, product and quotient rounds as numpy does; the order of the additions is any binary tree. Induction over the tree gives a bound for sums of any sign; the error of the mean enters the variance as its square. Constant records with few binary digits give exactly 0; others are refuted (three samples of 3 mm/s).
* **C166 The axis argument names the axis of the data along which bins are made** – Model/BinAxis.lean, Props/BinAxis.lean. mean swaps the axis to the end before it cuts bins and is proved right. var, std and demean hand the number to numpy for the array of bins, which has one axis more: proved for -1, and proved what 1, -2 and 0 give instead; refuted for every array whose number of bins is not the bin length (wrong shape), and by numbers when it is.
* **C167 Surface-layer profiles arrive as recorded** – Model/RdiSurf.lean, Props/RdiSurf.lean. A file is a list of ensembles whose blocks may change the leader; the leader in force is a fold over the blocks. Induction over ensembles and blocks gives the columns of the dataset, then the element of each surface-layer value in closed form. Refuted: missing velocities become -32.768 m/s in every file; cells an ensemble lacks repeat the ensemble before; cells beyond the last leader of the file are cut from all ensembles; more surface cells than main cells raise ValueError; a leader without velocities lists vel_sl for rotation.
* **C168 Smoothing the detected surface replaces each depth by the median of its neighbours** – Model/SurfFilt.lean, Props/SurfFilt.lean. scipy's median filter pads with zeros; counting the padded window against the recorded depths in it gives the rank of the result among them. Proved: no depth is lost in records longer than half the filter, the result is always a recorded depth, it is the median inside the record, and majorities are kept. Refuted: at both ends the result is the smallest depth in reach, in every record; records no longer than half the filter lose every depth; the threshold 4 is compared with a fraction and never makes a depth missing.
* **C169 Rotating in single precision loses no recorded step** – Model/RotF.lean, Props/RotF.lean. Induction over the accumulated products bounds every dot product; two products with nearly inverse matrices give the vector back; the matrix of a Nortek instrument, computed in single precision, is shown to lie within 16 units of 2^-24 of the exact rotation, entry by entry. Bit-for-bit equality is refuted at 45 degrees.
* **C170 Cleaning again, or in another order, changes nothing** – Props/Idem.lean, on the models of Model/Clean.lean and Model/Gaps.lean. The mean of a window does not change when missing samples are replaced by it (induction over the window). A rotated cell is whole or wholly missing. Counterexamples for the gap filling with a limit, the median filter, and blanking with a number.
* **C171 A setting that changes within a Signature file is announced** – Model/Collapse.lean (the condition of the warning and the processor states, next to collapse of Model/Ad2cp.lean), Props/Collapse.lean. The largest count is that of the value chosen (fold over the counts); from it the exact condition of the warning in terms of the numbers of occurrences; the processor states by counting set bits.
* **C172 A long record can be processed in pieces** – Model/Binned.lean and Model/Turb.lean, Props/Pieces.lean. The rows of the reshaped joined record are those of the pieces, by the index formula of the rows; every statistic is a function of its row. At the joint the padding differs: general statement about the last value of the row, and a constant record computed with the spectral estimator.
* **C173 A record that cannot be read costs nothing but itself** – Model/Nortek.lean and Model/VecFile.lean, Props/Unread.lean. For unknown kinds: the search started at the record meets its checksum at its end (sum over words), the loop is composed of the part before and the part behind. For IMU records of unknown type: the search starts inside the record, so the checksum cannot match at its end (arithmetic modulo 65536); the conversion of IMU data is run once for each entry of the list of types (induction over the log).
* **C174 Raw altimeter pings of a Signature are read with all their samples** – Model/AdAlt.lean (reading of the number of samples, the change of the reader at the first record, sizes with the padding of C structures), Props/AdAlt.lean. Padding-free arrangements characterised by divisibility (induction over the fields, cases over the flags); for these the records are decoded from their encoding by induction over the records; for all others the size differs from that of the packed structure and the first record raises. The sign of the samples by arithmetic modulo 65536.
* **C175 Everything a Signature measures is in the dataset** – Model/AdVars.lean (names of the records, sorting of the raw altimeter, status words, averaging with the fifth beam, orientation matrix, echo sounder, with the errors raised), Props/AdVars.lean. Variables are pairs of record type and name; distinct pairs have distinct names (finite check); membership is followed through the filters and the averaging by induction over the names. The files that can be read are characterised exactly.
* **C176 Saving does not change the data in memory** – Model/SaveCaller.lean follows the name ds of save, which is the dataset of the caller until the first complex variable is dropped. Exact contents of the caller's dataset after save, and of the file of a second save, for all datasets; concrete losses in single precision.
* **C177 Averages stay usable when the raw data is corrected for motion** – Model/RotNames.lean models the loop over the names of rotate_vars with the state it leaves on an error, and the way correct_motion extends the list. Exact outcome of rotating earlier and later averages for all lists, by induction over the list.
* **C178 Corrected velocity is raw velocity plus motion in every frame** – Invariant of the rotation loop over a list without repetitions, established by correct_motion; a list with repetitions, as two corrections through a shared list leave it, is shown to break it.
* **C179 Turbulence results follow the units of velocity and length** – Scaling laws of the models of all turbulence functions: powers, medians, minima, binning and detrending commute with a change of unit. The structure-function fit of profilers is shown to be invariant where it has to scale.
* **C180 Attributes survive saving and loading** – Model/AttrIo.lean: what netCDF gives back (trusted), the loop of load over the attributes, and the iteration over the list of rotated variables. Exact characterisation of the attributes that come back.
* **C181 Noise of a single beam is taken off where it belongs** – Model/TkeBeam.lean: the branch of calc_tke for data without dir, comparison of tuples, broadcasting in place. Exact result for each form of the noise; counterexamples for levels per cell and per bin.
* **C182 A steady current does not change the turbulence** – Props/Steady.lean: equality of the two calls, including errors, from the shape of the reshaped bins; the initial value of the array of bins never shows. Linear drifts by the uniqueness of the least-squares line. Counterexample with a missing sample.
* **C183 Rotating data with missing components** – Model/RotateGaps.lean repeats the rotation functions with NaN as none. Props/RotateGaps.lean: simulation between the rotation with gaps and that of the filled data, including errors; the set of missing components after any path by composing the single steps; round trip from that of C04; counterexample.
* **C184 The correlation filter in every coordinate system** – Model/CorrFrames.lean: rotate, mask, rotate back, on top of Model/RotateGaps.lean. Props/CorrFrames.lean from C183 and the round trip of C04.
* **C185 Detrending works line by line along any axis** – Model/DetrendNd.lean: numpy arrays as shape and entries, with broadcasting, nanmean with keepdims and in-place subtraction. Props/DetrendNd.lean: induction over shapes, then C20 for each line.
* **C186 A dataset without a list of vectors is rotated as if it listed vel** – Model/NoList.lean: rotate2 and its loop without the attribute, on top of Model/Rotate.lean. Props/NoList.lean: induction over the loop with an invariant saying that no beam rotation can be reached.

## Axioms

`AXIOMS.md` lists, for every theorem named in `MANIFEST.json`, the axioms reported by `#print axioms`. No theorem
depends on anything but `propext`, `Quot.sound` and `Classical.choice`.

## What is modelled, file by file

Every definition in `lean/Verif/Model` cites the lines it models. "Parameters" are library functions that a theorem
quantifies over, so the theorem holds for every function of that type (or for every one with the property named in
the theorem).

* `time.py` – all conversions, clock digits, gap filling of times (Time, TimeMore, Clock, Gaps). Dates are
  proleptic Gregorian; time zones are not modelled.
* `rotate/base.py`, `rotate/api.py`, `rotate/vector.py`, `rotate/awac.py`, `rotate/signature.py`, `rotate/rdi.py` –
  frames, matrices, declination, head matrix, principal heading, orientation from angles and quaternions, tilt,
  labels (Rotate, Orient, Labels, MedOrient). `scipy.spatial.transform.Rotation` by its formula, `medfilt` as the
  median of a zero-padded window. Warnings are not modelled.
* `binned.py`, `velocity.py` – reshaping, averaging, detrending, spectra and their units and coordinates,
  covariances, `do_avg`, `do_var`, turbulence quantities of the accessor, TKE and stresses (Binned, DoAvg, Psd, VelPsd,
  Csd, Cov, Turb, TurbAcc, BinAxis, VarBin, TimeBin), the printed summary (Repr).
* `tools/psd.py`, `tools/misc.py` – segments, windows, detrending, cross spectra of equal and unequal records, coherence,
  phase, interpolation of gaps, grouping, slicing, median filter (Psd, PsdQuasi, Gaps, Clean). The FFT is the exact DFT. The
  window function is a parameter where it is given by name.
* `adv/clean.py`, `adp/clean.py` – range, spike and phase-space masks, filling, surface detection, side lobes,
  correlation masks, offsets, gap filling along time and range (Clean, FillGaps).
* `adv/motion.py` – all of it, with the digital filters as parameters (Motion).
* `adv/turbulence.py`, `adp/turbulence.py` – cross spectra, noise, stresses, dissipation by all methods, production, shear
  (Turb, AdvCsd, AdvDissip, Cov). Real powers and logarithms are exact.
* `io/base.py`, `io/api.py` – file type, user data, dataset creation, file names, complex variables, encodings, MATLAB
  files as far as names, shapes and dates (IoBase, CreateDs, UserData, MatFile, SaveEnc). JSON, netCDF and MATLAB file
  formats themselves are not modelled.
* `io/nortek.py`, `io/nortek_defs.py` – opening, configuration records, record loop, resynchronisation, checksums, numbers in
  all data records, sizes, scientific units, gaps in system data (NortekInit, Nortek, NortekFields, NortekSize, NortekSci), whole files of Vector, AWAC and
  Vectrino (VecFile, NkFile, VnoFile). The texts of units and long names are
  not modelled.
* `io/nortek2.py`, `io/nortek2_lib.py`, `io/nortek2_defs.py` – index, index repair, ensembles, record decoding, header
  text, reorganisation, splitting of dual profiles, status bits (Ad2cp*).
* `io/rdi.py`, `io/rdi_lib.py`, `io/rdi_defs.py` – searching, block dispatch, byte positions, counts, values of all
  block types of PD0 files, configuration, GPS, assembly of the dataset (Rdi*). Values in VMDAS and WinRiver blocks: RdiNav;
  surface layers: RdiSurf.

Not modelled: warnings, logging, progress printing, plotting, documentation, `_version.py`, rounding where
no model applies it, overflow of fixed-width integers except where a comment says so, and the time and memory that a call takes.

## Defects found

Statements that a user would rely on and that are false of the code. Each is a theorem whose name ends in `_false` or
`_fails`; the notes in `MANIFEST.json` name the case, and the theorem says for which inputs.

* C01 `epoch_roundtrip_fails`: C01 fails as stated: half a second before 1970 comes back as half a second after.
* C01 `epochF_roundtrip_false`: Refuted: nanoseconds are not kept, and not even tenths of a second. Noon on 1 June 2020 and 0.1 s comes back 96 ns early.
* C04 `rotate2_roundtrip_fails_shear`: why the head matrix must be orthonormal. The code only checks that the determinant of `inst2head_rotmat` is one; a shear has determinant one and breaks the round trip inst → beam → inst.
* C05 `rotate2_ship_fails`: C05 (as the property says, the code breaks it). Data in the ship frame cannot be rotated to the instrument or beam frame: every such call raises, whatever the dataset contains.
* C18 `reshape_frac_fails`: C18 fails: 100 samples in bins of 2.9 raise IndexError.
* C20 `detrend_gap_wrong`: C20 fails with missing samples: the straight line `0, 1, 2` with its first sample missing is not mapped to zero, because the abscissae are centred over all positions.
* C23 `segments_count_wrong`: C23 fails: nine samples with FFT length four give six segments, divided by four.
* C28 `phase_angle_wrong`: C28 fails: two segments of opposite phase. The average of the phasors of `a` and `b` is not what the code returns: `b` and `b'` differ only after the first segment, the code returns the same for both, but the averages differ.
* C32 `group_wrong`: C32 fails: whenever the mask starts with `True` and contains another run, the returned slices are not the runs.
* C39 `nan_beyond_supplied_wrong`: C39 fails: for every non-zero rational beam angle given by the user in degrees there is a profile and a cell which the call treats differently from the same angle in the dataset.
* C45 `adRead_zero_count_false`: A field with no elements (a profile without cells) still reads one element, and every later field is read from the wrong place.
* C46 `adIndex_loops_false`: C46 (sizes of 32768 or more). The size is read as a signed number: a record of 65526 bytes is taken for one of −10 bytes, and the loop never ends.
* C46 `adIndex_restart_false`: C46 is false when a counter after a restart meets the continued count. Counters 3, 1, 4 (the instrument started again and two pings are missing): the third record is taken for the ensemble of the second.
* C47 `altraw_range_false`: C47 (false with raw altimeter records). The same file is read completely without error, but reading the ensembles from the third one on raises `KeyError`: the number of raw altimeter pings in the range is determined from their own counter.
* C47 `single_ensemble_false`: A file with a single ensemble cannot be read: the size of the last block is compared with the most frequent distance between ensembles, of which there is none.
* C49 `collapse_all_excluded_false`: C49 (failure). When the vector is not uniform and every value is excluded, the code raises `IndexError` instead of returning a value.
* C50 `rdi_reader_exact_false`: C50 is false for bottom tracking in WinRiver files: every such block leaves the reader 12 bytes behind what it reports.
* C50 `rdi_in_step_false`: C50 is false across ensembles: the correction found at the first ensemble (3 bytes) is used for the second, which would need 1, and the reader ends two bytes inside the third ensemble; that one is lost: the next header accepted is the fourth (at 77, after which the reader stands at 104).
* C50 `rdi_unknown_last_false`: C50 is false of the code for an unknown type at the end of the ensemble: there is no next offset and the reader raises `IndexError`.
* C50 `rdi_attitude_false`: C50 is false of the code for the other attitude types: with a hexadecimal digit from `a` on (`30A0` to `30FC`) the reader raises `ValueError` – the digit is read as a decimal one – although the header says where to go on.
* C51 `rdi_reads_all_false`: C51 is false: no file of complete ensembles, however long, has all of them read.
* C53 `rdi_declination_false`: C53 is false: when the software had applied a declination, nothing is turned whatever the user asks for; the dataset only claims to be relative to the user's value.
* C53 `rdi_declination_wrong`: With a software value different from the user's, the heading is therefore not the one relative to the user's declination.
* C55 `complex_roundtrip_fails`: C55 is false of the code: with two or more complex variables the first of which has a one-letter name, loading the saved file raises TypeError.
* C56 `reduceAvgAngle_negative_false`: C56 (false part). Headings do not stay in [0, 360): two headings of 270 degrees average to −90.
* C56 `reduceAvgAngle_opposite_false`: C56 (opposite angles). Two opposite angles have no average; in exact arithmetic the result is zero, whatever they are.
* C57 `stress_cauchy_schwarz_false`: C57 is false for components with different missing samples: the stress is averaged over the jointly valid samples and the variances over each component's own, and the bound fails, with and without detrending.
* C60 `five_beam_false`: Witness for both failures at a beam angle of 30°: isotropic-like statistics with unequal variances.
* C61 `lt83_noise_rad_false`: C61 is false for spectra in rad/s with a noise level: the function subtracts the per-Hz level, so a spectrum made of an exact inertial range plus the white noise it is told about does not return the generating dissipation.
* C62 `sf_wrong`: C62 is false: with the exact structure function of any dissipation `ε > 0` at separations 1 m and 2 m (bin size 1 m, both separations fitted) the code returns strictly less than `ε`.
* C65 `duty_false`: C65 is false: with a declared burst interval `iv` and a record whose bursts follow each other at any other regular interval, the duty cycle is accepted.
* C70 `find_surface_wrap_false`: C70 fails in profiles of more than 256 cells: the index of the last decrease wraps around. If the echo decreases only from cell 256 to 257, the second candidate is cell 1 for every beam.
* C73 `ti_threshold_false`: C73 is false of the threshold: a steady flow slower than the threshold, "below which TI will not be calculated", still gets a turbulence intensity in every bin.
* C77 `separate_probes_false`: C77 is false: with `separate_probes` the code contracts the wrong axis, mixing the velocities of different probes. Witness: the real probe geometry of a Vector, rotation about the vertical.
* C80 `nortek_start_ignored_false`: C80 (refutation). `nens=(start, stop)` is documented to read from `start` to `stop`; the start is ignored: the first `stop` pings are read and nothing is cropped.
* C80 `nens_one_imu_false`: C80 is false for one ping with IMU data. With `nens=1` the IMU record of the first sample is not read, for every file that begins with a sample and its IMU record; the reading of the whole file stores it.
* C88 `altraw_splits_ensemble_false`: C88 (false). With a raw altimeter ping in the third of three ensembles, whose counter in the index is its own, the file seems to have four ensembles: the velocity of the last ping ends up in column 3, and nothing is stored in column 2.
* C89 `rdi_number_false`: C89 is false: two consecutive ensembles get the same number at every overflow of the low word.
* C90 `rdi_default_false`: C90 is false for ensembles of less than 400 bytes: as soon as the file is long enough, reading it with the default settings silently loses ensembles that are there to be read.
* C91 `crop_last_false`: C91 (false part). The end of the range must itself be the number of an ensemble of the file, and that ensemble is left out: no range keeps the last ensemble, and naming the number behind the last one raises.
* C92 `ping_time_1970_false`: C92 (false part). The first instant of 1970 is a legal time that is taken for a missing one.
* C93 `skip_two_false`: C93 is false of the code when a record is skipped in two ensembles in a row: the gap is counted once, and all later records of the type are numbered one too low.
* C93 `skip_first_false`: C93 is false of the code when the first ensemble is incomplete: the type that is missing there stays one behind for the whole file.
* C93 `dual_three_groups_false`: C93 is false of the code for a dual-profile file with exactly three groups of a type: no record is missing, but the first of the two gaps counts as a skipped ping.
* C94 `acov_mod4_false`: C94 is false of the code for bin sizes that leave the remainder two or three on division by four: they always raise.
* C94 `acov_five_false`: C94 is false of the code for bins of five samples, although bins of four, eight and nine work: the padding of half a sample leaves an empty slice that is assigned to whole rows.
* C94 `acov_override_false`: C94 is false of the code when `n_bin` overrides the bin size of the binner: with a smaller bin size the later rows are never written, with a larger one the call raises.
* C94 `acov_single_false`: C94 is false of the code for a single bin: adding a constant to the signal changes the result.
* C95 `xcov_label_false`: C95 is false of the code: the lags are numbered from 0, but with three lags the one called 0 is the covariance with the samples one step *earlier*.
* C95 `xcov_drift_false`: C95 is false of the code also for one lag: the bin size of the first series is computed in floating point and comes out one short for some lengths (`pairBin_short`). Then the first series is taken `r` samples too early in bin `r`.
* C96 `coh_drift_false`: C96 is false of the code for other bins: the bin size of the first series is computed in floating point, and where it comes out one sample short, bin `r` of two series of one length compares samples that are `r` apart; the end of the first series has no influence.
* C96 `coh_nfft_false`: C96 is false of the code: asking `calc_coh` for an FFT size that gives a different number of frequencies than the binner's own raises.
* C96 `csd_rates_false`: C96 is false of the code for cross spectra of series with different rates: whatever the first series does after its first `len + nf/2 + 1` of `c·len` samples has no influence on the result.
* C97 `b5_order_false`: C97 is false of the code for two-dimensional fifth-beam profiles: behind a variable of another record type they are dropped without a message, as first variable they raise, and with three cells they are taken for a vector of the motion sensor.
* C97 `few_beams_false`: C97 is false of the code for instruments with one or two beams: the number of beams is raised to three, so a dataset with a velocity profile cannot be made.
* C98 `avg_static_false`: C98 is false of the code for variables without a time axis: with bins of two or more samples a matrix is left out without a message (after that the dataset cannot be rotated to or from beams).
* C98 `avg_short_false`: C98 is false of the code when one record type has fewer samples than a bin: the whole call raises, whatever the other variables are.
* C99 `mat_single_false`: C99 is false of the code for datasets with an axis of length one (one ping, one cell): loading raises.
* C99 `mat_derived_false`: C99 is false of the code for derived profiles like the standard deviation of the speed, which `do_avg` adds to every averaged profiler dataset: they are lost without a message.
* C100 `userdata_path_false`: C100 is false of the code for the name of a userdata file passed to the reader, as its documentation allows: it is not read; the result is that for `True`.
* C100 `userdata_dec_false`: C100 is false of the code for other names that contain `dec`: a height `deck_height` behind the declination is taken for the declination, by both Nortek readers, and does not become an attribute.
* C101 `config_bt_false`: C101 is false of the code for bottom track: records with four beams in earth coordinates followed by records with three beams in instrument coordinates are accepted, and all are read with the first ones' configuration.
* C102 `last_whole_false`: C102 is false of the code for a complete last ensemble of another size than the others (with a record more or less): it is dropped.
* C103 `head_get_false`: C103 is false of the code for commands whose name begins with `G`, `E` or `T`: the settings of the echo sounder (`GETECHO`) are stored under `CHO`, those of the trigger (`GETTRIG`) under `RIG`, so neither can be found under its name.
* C103 `head_repeat_false`: C103 is false of the code for a repeated `GET` command: the file cannot be read at all.
* C104 `reduce_avg_false`: C104 is false of the code for files with averaged profiles: the sampling rate (`fs`, in Hz) is set to the measurement interval `MIAVG` (in seconds), also when the file has burst profiles with a rate of their own, and the beam matrix is that of the averaging plan.
* C104 `reduce_b5_false`: C104 is false of the code for a file with fifth-beam or echo profiles only: it cannot be read.
* C105 `split_equal_false`: C105 is false of the code when both profiles have the same number of samples: the call raises, so such a file cannot be read.
* C105 `split_dec_false`: C105 is false of the code for the declination: a declination given for the file is not applied to the second dataset. Whatever the declination, its orientation matrix is the one in the file, and the declination is not among its attributes.
* C106 `sf_high_false`: C106 is false of the code for a frequency range that reaches beyond the sampling rate: instead of the announced warning the call raises (bins of two or more samples).
* C107 `te01_hz_false`: C107 is false of the code for spectra in Hz, which the documentation allows: the same spectrum per Hz (`S_f = 2π S_ω`, `f = ω/2π`) gives the dissipation rate divided by `2π`.
* C108 `awac_room_false`: C108 is false of the code for an AWAC file that begins with wave bursts between its profiles and goes on without them: there is room for 62 of its 151 profiles.
* C108 `vector_slow_false`: C108 is false of the code for a Vector sampling slower than once per second: there is no room at all.
* C108 `findnextid_zero_false`: C108 is false of the code for a damaged size field: a record whose size field is zero, in front of the first record of the kind sought, keeps the reader where it is forever.
* C109 `vec_sysdata_cold_false`: A Vector in water of −1.80 °C reports 653.56 °C: the temperature is unpacked unsigned.
* C109 `awac_negative_false`: Every negative pitch, roll or temperature of an AWAC comes out wrong: too large by 6553.6 degrees or 655.36 °C.
* C110 `awac_range_drift_false`: The ranges drift away from the nominal ones: with a nominal cell size of 1.004 m and no blanking the cell size is stored as 1.00 m and cell `i` is `0.004 i` m too near (40 cm for cell 100).
* C111 `tilt_nortek_false`: At 45° of pitch and roll of a Nortek instrument the axis is 60° from the vertical but the tilt is less: its cosine is 1/√3, not 1/2.
* C112 `rotate_vars_missing_false`: Burst records without velocities still register `vel`, a variable the dataset does not have.
* C112 `coord_sys_mixed_false`: Burst velocities along the beams with averages in earth coordinates: both are registered for rotation, and the dataset claims both are in beam coordinates.
* C116 `set_coords_three_beams_false`: A three-beam Signature cannot be given instrument, earth or principal coordinates: four labels do not fit three components.
* C116 `set_coords_forced_false`: `forced` always raises: the suffix is added before the labels are looked up.
* C118 `velPsd_override_false`: Refuted: with a per-call `n_bin` that gives another number of bins than the binner's own, no arguments return a spectrum (IndexError or ValueError).
* C119 `tkeOf_missing_false`: Refuted: when all variances are missing the energy is reported as zero, not as missing, and so is the intensity.
* C120 `advCsd_override_false`: Refuted for a per-call `n_bin` that changes the number of bins.
* C121 `medfiltOrient_signs_false`: Refuted: for unit quaternions of one and the same orientation the call raises, because the filter mixes the two signs with the zeros beyond the ends of the record.
* C122 `rdi_bottom_false`: C122 (refuted): the second ensemble has no bottom track, yet the dataset shows one in its column: a range of 10.00 m, and -32.768 m/s in the bad beam.
* C122 `winriver_bottom_range_false`: refuted for WinRiver files. The recorded range is 20 m; the dataset says 675.36 m. The velocity is right.
* C122 `rdi_not_yet_false`: C122 (refuted): the first ensemble has no bottom track. Its bottom-track range is NaN, its bottom-track amplitude any number.
* C123 `rdi_short_false`: C123 (refuted): a file with a single ensemble, or `nens=0`, raises an unbound-variable error.
* C123 `rdi_first_time_false`: C123 (refuted): when the clock of the first ensemble shows no date, nothing is returned: `IndexError`, whatever the other ensembles hold.
* C124 `rdi_config_other_angle_false`: instruments whose beam angle is none of 15, 20 and 30 degrees (code 3, "other") cannot be read.
* C125 `quasi_order_false`: C125 (refuted): the order of the arguments is lost when the lengths differ; for equal lengths exchanging them conjugates the result (`cpsd_swap`).
* C125 `quasi_sign_false`: C125 (refuted) at a concrete pair of records of 5 and 4 samples: the documented result, first argument times the conjugate of the second, has a negative imaginary part at the first frequency; the function returns a positive one.
* C125 `coherence_noise_false`: C27, C125 (refuted): with records of different lengths the noise levels go to the shorter and the longer record, not to the first and the second.
* C127 `corr_filter_keeps_false`: C127 (refuted): although documented not to edit correlation or amplitude, `correlation_filter` blanks them: a beam of correlation 40 and amplitude 9 at threshold 50, byte arrays.
* C128 `nortek_burst_mode_false`: C128 (refutation). The burst mode is a flag of the recorded setup, but the dataset says the same of every file: two setups that differ in nothing but this flag are reported alike.
* C129 `nortek_big_endian_false`: C129 (refutation). The reader has a branch for big-endian files, but the same file written big-endian never opens: the second test reads the four bytes behind the header.
* C129 `nortek_vectrino_matrix_false`: C129 (refutation). A Vectrino is recognised by `VNO` at the start of its serial number, but its matrix is read by the number of beams only if `VNO` is a word of its own: with the number following at once, a head of four beams is read as one of three.
* C129 `nortek_burst_length_false`: C129 (refutation). At 1 Hz and below the length of a burst is reported as the sampling interval, whatever the number of samples: 600 samples at 1 Hz are `1 second bursts`.
* C130 `fillgaps_maxgap_false`: C130 (refutation). `maxgap` is documented as the longest gap to interpolate across; the first samples of every longer gap are filled all the same.
* C131 `save_user_encoding_false`: C131 (refutation). The values of `encoding=` are documented to take precedence; for every variable of the dataset they are discarded.
* C131 `save_changes_caller_false`: C131 (refutation). Saving changes the dataset of the caller: compression and chunking of the variable in memory are those of the file afterwards.
* C132 `binner_call_input_false`: C132 (refutation). The tool edits its input: the configuration attributes of the data averaged are gone afterwards.
* C133 `stress4_changes_caller_false`: C133 is false for "the data handed over is not changed". Data in any frame but beam is in the beam frame after the call, whatever the result is.
* C133 `stress5_changes_caller_false`: Whatever frame it came in, the dataset is in the instrument frame after a five-beam call that returns.
* C133 `stress_angle_argument_false`: C133 is false for the argument `beam_angle`. With a beam angle in the dataset the argument has no effect.
* C133 `stress_binner_noise_false`: C133 is false for the noise of the binner. The noise level that the binner was created with is never used; without the argument no noise is removed.
* C134 `new_coords_false`: C134 is false for other time dimensions. For data along `time_b5` or any other time dimension that is not called `time`, coherence, phase and covariances raise an error.
* C134 `new_coords_b5_false`: The first failing dimension decides: with coordinates for all other dimensions the error is the `AttributeError` of `array.time`.
* C135 `vmdas_attitude_false`: The full statement for the attitude, a small roll to port recorded as −2°, is false: it is reported as almost 358°.
* C135 `vmdas_flags_false`: The flags as recorded are false, too: they are stored as a decimal number of up to sixteen digits in single precision. Whatever the block, the flags 256 (ninth bit) and 257 (first and ninth bit) give the same value.
* C135 `position_step_false`: So are positions to the recorded resolution (a centimetre): single precision keeps steps of 2⁻¹⁷ degrees, 0.8 m at the equator, at the longitude of Seattle.
* C135 `winriver_equator_false`: The full statement is false: on the equator, whatever the longitude and quality, the latitude is missing.
* C135 `winriver_meridian_false`: And on the zero meridian the longitude is.
* C135 `winriver_west_false`: The recorded resolution (a centimetre) is not kept: western longitudes are stored between 180° and 360° in single precision first. 364 neighbouring values half a degree west, over 3.3 m, give the same longitude.
* C135 `gga_date_false`: The time of a fix is wrong by a day when the instrument's clock is still on the previous date (behind by some seconds, or kept in local time): the statement that the time is the one recorded is false.
* C135 `no_sentence_keeps_false`: The statement that an ensemble without a fix has no position is false: when the receiver sent no data (the stored sentence is short), the values of the ensemble before stay and are copied into the dataset as new ones.
* C136 `psd_missing_noise_false`: With a noise level the full statement is false: if anything is missing anywhere in the spectra, every value below the noise level is missing too, also in complete bins; values above it are corrected as they should.
* C136 `psdN_override_false`: Refuted for a longer per-call `n_bin`, as without missing samples (C118): the bins stay those of the binner, and there are more of them than the result has room for.
* C137 `rdi_cells_false`: C137 (refuted): the second ensemble has one cell, yet the dataset shows a velocity of 1 m/s in its second cell, which is that of the first ensemble.
* C137 `rdi_growth_zero_false`: C137 (refuted): the second ensemble has no correlations, yet the dataset shows a correlation of zero in its first cell, because it has more cells than the first one.
* C137 `rdi_range_false`: C137 (refuted): the first ensemble has cells of 1 m, the second one of 0.5 m; the second cell of the dataset, which holds the velocity recorded at 2.90 m in the first ensemble, is labelled 2.40 m.
* C137 `rdi_late_variable_false`: C137 (refuted): a file whose third ensemble is the first with correlations, behind one with more cells, cannot be read.
* C138 `stress5_tilt_false`: C138 is false for the stresses: an upward-facing Signature with pitch only in a flow with fluctuations along x only. The true stress `u'w'` is zero, the reported one changes with the tilt to first order.
* C140 `avg_to_beam_false`: fails for beam coordinates. `do_avg` leaves out the matrix of the beams (it has no time, see C98), and then the averages cannot be rotated to beam coordinates; for any instrument.
* C140 `avg_rotate_moving_false`: needs the instrument to be still. For an instrument that turns within a bin the rotated average is not the average of the rotated data: here a steady flow of 1 m/s becomes 0.
* C141 `sf_hole_false`: C141 is false for cells of 10, 20, 40 or 80 cm (and all other sizes `0.2·2^j`): the quotient of the sixth separation and the cell size is rounded to a number below six, so the structure function of six cells stays zero, at all cells and in all bins, whatever the record.
* C141 `sf_hole_sizes_false`: Other usual cell sizes (in millimetres) with the number of cells of the first separation that is never computed, among the separations up to 5 m.
* C141 `sf_dissipation_high_false`: C141 is false for the dissipation. Cells of 20 cm and the range from 1 m to 5 m of the default arguments: the missing separation is the first one of the fit. Wherever its structure function is positive, the dissipation is larger than that of the least-squares line through the structure function.
* C141 `sf_label_false`: C141 is false for the labels. The documentation has `D(z,r)` between `z` and `z+r`. For every profile the entry of the lowest cell is missing although the cell above exists, and the entry of a cell is the one documented for the cell `r` below (shown here for one and two cells).
* C141 `sf_too_far_false`: C141 is false for long ranges. A range that reaches two cells beyond the profile makes the call raise ValueError instead of giving missing values.
* C142 `ad_bt_mag_false`: C142 is false for the magnetometer in bottom-track records. Its values are labelled microtesla like those in velocity records, but the same stored numbers come out ten times larger.
* C142 `ad_cold_false`: C142 is false below 0 °C. The water temperature of a velocity record is never negative, whatever its bytes are; a stored -1 °C (-100 in two bytes) is read as 654.36 °C.
* C143 `ad_column_last_false`: C143 is false for an ensemble with several records of a type (a counter that starts again, C46): its column holds the last of them only, whatever the earlier ones were.
* C144 `index_stale_witness_false`: A file with one record more than its index.
* C144 `index_stale_false`: C144 is false for a file that has changed. Once there is an index file, the result does not depend on the data at all: a file to which records have been added since (or another file under the same name) is read with the old index.
* C144 `index_truncated_false`: C144 is false for a file that ends inside a record. The first call raises `struct.error`, but leaves an index file with the complete records before; every later call uses it without an error.
* C144 `index_unversioned_false`: C144 is false for index files without a version, for which there is a data type: none of them can be used.
* C145 `rdi_resync_false`: C145 is false for a single byte too many: the pair formed by the second and the third byte is never looked at, and the reader begins with the second ensemble, at 25, though one begins at 1.
* C145 `rdi_resync_stray_false`: C145 is false for stray bytes `7F 7F` that announce a length beyond the end of the file: the search is over, and the complete ensembles that follow are not read.
* C145 `rdi_resync_before_false`: C145 is false for the ensemble in front of the damage: a complete ensemble that is followed by a stray byte is passed over, and the reader begins with the one at 25.
* C146 `vector_phantom_false`: C146 is false of the code for a Vector without an IMU: the room that the reader makes for a file, a multiple of the sampling rate, always exceeds what a regular file needs, and what is left over is not cut off (`_crop_data` looks for arrays in a dictionary of dictionaries). The dataset ends with samples that nobody recorded, with times that run on, amplitudes 0 and velocities NaN.
* C148 `repr_no_time_false`: C148 is false of the code: a dataset without `time` is not summarised with a remark that there is no time information, it cannot be printed at all.
* C148 `repr_others_false`: C148 is false of the code: `and others` is printed although every variable is shown, whenever one of them is shown without a wildcard (they are not counted); here `time` and `range`.
* C148 `repr_limit_false`: C148 is false of the code: `only the first 12 matches are displayed` – thirteen are.
* C149 `vector_north_false`: C149 is false of the code between two system records on both sides of north: the heading is interpolated through south. A Vector whose x axis turns from 359° to 1° in one second measures 0.1 m/s along it all the time. In the dataset the velocity is towards north when its heading is recorded, and towards south half a second later.
* C150 `rdi_earth_setup_false`: C150 (refuted): of an instrument that is turned over, the ensembles recorded before show up as down: here the water moves up at 2 cm/s according to the setup recorded in the first ensemble, and the dataset says down.
* C150 `rdi_earth_bottom_false`: C150 (refuted): the bottom velocity is given, and turned, although the instrument marked it as bad.
* C151 `sig_orient_false`: refuted for pings that differ from most. An instrument is turned over between the first ping and the others. The velocity that points up in the frame of the instrument points down in the earth frame in the first ping, but the dataset says that it points up: the orientation of the whole file is that of most pings.
* C151 `sig_sensors_enu_false`: refuted for the sensors of files in earth coordinates. The instrument is level and heads north; the acceleration along its x axis is thus northward. The dataset is in the earth frame, but says that it is eastward: only the velocity is in the earth frame.
* C151 `sig_sensors_beam3_false`: refuted for the sensors of files with three beams in beam coordinates. The instrument is level and heads north. The northward acceleration of one unit of gravity becomes two units: the accelerations are multiplied with the beam matrix, although they are not along the beams.
* C152 `vector_imu_beam_false`: C149 is false of the code for the sensors of the IMU when the velocity was recorded along the beams: they have three components as well, and are multiplied with the matrix of the *beams* of the velocity. A Vector whose x axis of the IMU points north records an acceleration of 1 g along it; in the earth frame it is 0.347 g towards north, 2.71 g towards east, 2.71 g upwards.
* C152 `vector_imu_enu_false`: C149 is false of the code for the sensors of the IMU when the velocity was recorded towards east, north and up: they are recorded along the axes of the IMU but taken for components towards east, north and up. A Vector whose x axis of the IMU points north records an acceleration of 1 g along it; in the earth frame it points upwards.
* C154 `burst_phantom_false`: C154 is false of the code when the recording stops within a burst and there is no IMU: with room to spare the dataset has entries behind the last sample, with times of the clock, velocity NaN and amplitude 0.
* C155 `gap_hides_spike_false`: C156: in a record that fits into one block, a lone spike is found whatever its height; with one sample missing anywhere, it and everything else is passed over.
* C156 `despike_missing_false`: C156 fails: a missing sample keeps every sample of its block from being flagged, in any record that is judged as one.
* C156 `gap_hides_spike_false`: C155, C156: in a record that fits into one block, a lone spike is found whatever its height; with one sample missing anywhere, it and everything else is passed over.
* C157 `nan_beyond_half_done_false`: C157 fails: a profile with a surface layer of one cell is refused, and the call in place leaves the dataset half done: the velocity is blanked already.
* C157 `nan_beyond_own_range_false`: C157 fails: a fifth beam with as many cells is blanked by the ranges of the other beams, not by its own; here its second cell is at 1.2 m, the surface at 1.5 m, and the cell is lost.
* C157 `nan_beyond_late_offset_false`: C157 fails when the deployment height is set after the depth was found: the surface is taken to be nearer by that height, and good cells between are blanked.
* C158 `epochF_roundtrip_false`: Refuted: nanoseconds are not kept, and not even tenths of a second. Noon on 1 June 2020 and 0.1 s comes back 96 ns early.
* C159 `sig_sensors_missing_false`: a file. 1500 m/s become 750 m/s, 10 °C become 5 °C and a heading of 90° becomes 45° in the ping whose record of the fifth beam is missing.
* C160 `phase_missing_false`: refuted for the phase. Everything the second record misses after its first segment goes unnoticed: the phase is that of any complete record.
* C161 `nortek_zero_size_false`: C161 is false: a file that is fine up to its first data record is never opened if that record has the size 0. This holds for every valid configuration and whatever follows, and however long one waits.
* C161 `adIndex_loops_false`: C46 (sizes of 32768 or more). The size is read as a signed number: a record of 65526 bytes is taken for one of −10 bytes, and the loop never ends.
* C161 `rdi_hangs_false`: C161 is false for WinRiver II files: the correction of the position found at the wrong ensemble (24 bytes back) is applied to every ensemble after it, so that the reader comes back to the same place. As the ensemble there has no variable leader, reading never ends.
* C162 `single_steps_false`: Refuted for everything that is recorded with 32 bits: two pressures a millibar apart become one number.
* C163 `mean_times_false`: Refuted: the mean is not kept to the nanosecond. Ten samples at 10 Hz.
* C164 `vno_cut_false`: C164 is false of files that end within a sample, as they do when recording stops: the dataset has one entry more than there are samples, with a time, but without velocities, and with amplitudes, correlations and status 0.
* C164 `vno_mark_false`: C164 is false when an event is marked during the recording: a later event record moves the times of all samples, also of those recorded before it.
* C164 `vno_no_event_false`: C164 is false of files without an event record: they cannot be read.
* C164 `vno_full_false`: C164 is false when there is less room than samples: reading raises IndexError, it does not drop the rest.
* C165 `var_constant_false`: C165 is false of the code for constant records in general: three samples of 3 mm/s, as they are stored.
* C166 `var_axis_false`: C166 is false of `var`: whenever the number of bins differs from the bin length, the last axis under the number 1 gives an array of the wrong shape.
* C166 `var_axis_square_false`: Two bins of two samples: the shape is right and the numbers are not.
* C166 `demean_axis_false`: C166 is false of `demean` in the same way: it raises unless the number of bins is the bin length or one of the two is 1.
* C166 `demean_axis_zero_false`: C166 is false of `demean` with the axis 0, too: one series of `n` bins of `n` samples comes back as `n` series, each sample less another sample.
* C167 `surface_missing_false`: C167 is false: a missing surface-layer velocity (recorded as -32768, in the main profile turned into NaN) stands in the dataset as a velocity of -32.768 m/s, in every file.
* C167 `surface_stale_false`: C167 is false: cells that an ensemble does not have are not missing. Where its surface layer has fewer cells than the last one of the file, the dataset repeats the value of the ensemble before.
* C167 `surface_rotate_false`: C167 is false: a leader puts `vel_sl` on the list of variables to rotate, whether or not there are surface-layer velocities.
* C167 `surface_too_many_false`: C167 is false: an ensemble whose surface layer has more cells than the main profile cannot be read.
* C167 `surface_false`: C167 is false: the second ensemble recorded one surface-layer cell, and the dataset shows a second one, of the first ensemble; in another file the second cell of the first ensemble was recorded and is cut off, because the last ensemble has one cell; and in a third `vel_sl` is to be rotated and is not there.
* C168 `surface_filter_first_false`: C168 is false at the ends of every record: the first smoothed depth is not the median but the smallest of the depths in reach.
* C168 `surface_filter_last_false`: C168 is false at the other end, too.
* C168 `surface_filter_short_false`: C168 is false of short records: if the record is no longer than half the filter, every depth is lost.
* C168 `surface_filter_gap_false`: C168 is false of missing depths: the threshold of `find_surface` never makes a smoothed depth missing, however many of the depths in the window are.
* C169 `nk_back_exact_false`: C169 is false of exact equality: with a heading of 45° and level, a velocity of 1 m/s along x comes back smaller.
* C170 `fillgaps_again_false`: C170 is false of gaps longer than `maxgap`: every further call fills the next `maxgap` samples.
* C170 `medfilt_twice_false`: C170 is false of the median filter: a record that goes to and fro between two values is turned over by the first call, and the second call turns it over again, so that it is not the same.
* C170 `corr_surface_order_false`: C170 is false when cells beyond the surface are blanked with a number: a number not above the threshold counts as a low correlation afterwards, so that the velocity is NaN in one order and the number in the other.
* C171 `collapse_silent_false`: C171 (failure). If every value of a setting occurs in at least two pings, no warning is given, however many values there are: one of them is used in silence.
* C171 `collapse_zeros_silent_false`: C171 (failure). Zeros are never announced, however many pings have them, as long as there is one other value that is at least as frequent.
* C171 `proc_idle_silent_false`: C171 (failure). A processor short of time in at least two pings, but fewer than half of them, is reported as one with time to spare, without a warning.
* C172 `pieces_psd_false`: C172 is false for spectra at the joint. A constant record of three bins of eight samples has no power in its middle bin; the first two bins processed alone have power there, because the last bin of a piece is padded with zeros.
* C172 `pieces_noise_false`: C172 is false for the noise correction: values that would become negative are replaced by one hundredth of the smallest value of the whole call, so that the spectrum of a bin depends on the other bins processed with it.
* C172 `pieces_acov_false`: C172 is false of the auto-covariance at the joint: the same bin of eight samples has another value at lag one when the record is cut behind it.
* C172 `pieces_window_false`: Why C172 stops at the joint for cross spectra and coherences: the window of the last bin of the first piece ends with zeros where that of the record has data.
* C172 `pieces_csd_false`: The same as the result of a call, for a stand-in estimator that sums the second series (`pieces_psd_false` has a witness with the estimator of the code).
* C173 `unknown_imu_loses_next_false`: C173 is false of the code for IMU records of an unknown type: the reader never resumes at the record behind an intact one (unless the record announces the impossible size of 36443 words, or 23183 in the other byte order), and the next sample that is found replaces the last one that was read.
* C173 `unknown_imu_loses_rest_false`: C173 is false of the code, an example: of four samples behind a first one and an IMU record of type 210, all with the right checksums, none is read; the first sample is in the way of the next.
* C173 `unknown_imu_unreadable_false`: C173 is false of the code: a recording of a Vector without an IMU is read, but with an IMU record of an unknown type at its end — of which the first six bytes are enough — it is not: `AttributeError`, or `KeyError` for type 210.
* C173 `unknown_imu_converts_again_false`: C173 is false of the code: when the records of a file end up as they would without `as`, IMU records of unknown types in front of the first one that can be decoded, the whole IMU data is converted once more for each of them. The dataset is otherwise the same; the accelerations are too large by the factor `9.80665` (times `fs` for types 195 and 211) for each.
* C174 `altraw_unreadable_false`: C174 is false of the code for every record that would need padding: the first one ends the reading of the file. The size of the record is computed with the padding of C structures, its contents are unpacked without.
* C174 `altraw_orientation_false`: C174 is false of the code in particular for every file with orientation data and an even number of samples.
* C174 `altraw_negative_false`: C174 is false of the code for every negative sample: the array has no sign, so the value comes out 256 too large.
* C175 `percent_good_lost_false`: C175 is false of the code for percent good: no dataset has it, whatever the file holds. (The record calls it `percent_good`, the dataset is filled with `prcnt_gd`.)
* C175 `sig_avg_no_ahrs_false`: C175 is false of the code for averaged profiles without orientation sensor: the file cannot be read.
* C175 `sig_altraw_no_altimeter_false`: C175 is false of the code for raw altimeter pings beside profiles without altimeter: the file cannot be read.
* C176 `save_caller_false`: C176 (refuted): a variable of times in seconds, here September 2020, is off by 63 s in memory after the dataset was saved.
* C176 `save_twice_false`: C176 (refuted): a complex variable survives the first save unchanged and the second one not.
* C177 `avg_usable_false`: C177 is false: the averages of a Vector cannot be rotated once the raw data is corrected for motion.
* C178 `sum_twice_false`: A list with the names twice does not have the property: the raw velocity is turned twice, the velocity once. So the list must not be extended twice.
* C179 `sf_units_false`: C179 is false of the structure function of a profiler: in centimetres the number that comes out is the one that comes out in metres.
* C180 `attrs_kept_false`: C180 is false, for example for a list of one text that is not `rotate_vars`: looping over it gives letters.
* C181 `noise_own_false`: C181 is false: with two cells and three bins both the levels of the cells and those of the bins are refused.
* C181 `noise_cells_false`: With two cells and two bins the levels of the cells are accepted and land in the bins: the second bin of the first cell loses the noise of the second cell.
* C182 `drift_free_false`: C182 is false when samples are missing: a drift of one per sample is taken for energy.
* C183 `gap_back_false`: C183 (the full claim is false): rotating to earth coordinates and back does not return the measured components of a sample in which another component is missing.
* C183 `gap_declination_false`: C183 (false of `set_declination`): setting the declination of earth-frame data, even the one that is already set, loses the measured vertical velocity of a sample whose northward velocity is missing.
* C183 `gap_head_false`: C183 (false of `set_inst2head_rotmat`): in earth coordinates even the identity loses the measured vertical velocity of a sample whose northward velocity is missing.
* C184 `corr_filter_ship_false`: C184 (false of ship coordinates): the filter raises on every dataset in the ship frame.
* C185 `detrend_integers_false`: C185 is false of integers: every array of integers is refused, in place or not, also when the trend is a whole number, and stays as it was.
* C186 `nolist_false`: refuted. In beam coordinates a dataset that can be rotated with the list `['vel']` raises AttributeError without it, instead of warning and rotating `vel`.
