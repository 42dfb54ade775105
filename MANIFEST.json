{"claims": [
 {"property": "C01", "status": "proved", "theorems": ["Verif.simulate_length"], "note": "Unconditional on arguments and state: whenever the call returns."},
 {"property": "C02", "status": "proved", "theorems": ["Verif.simulate_corner_1D", "Verif.simulate_corner_2D", "Verif.simulate_corner_3D"], "note": ""},
 {"property": "C03", "status": "proved", "theorems": ["Verif.simulate1D_value", "Verif.simulate2D_value", "Verif.simulate3D_value"], "note": "Each returned value is an explicit finite linear combination of the normal numbers drawn for the call, with coefficients that do not depend on the draws. Doubles are modelled as reals and the FFT library by its laws (Fftw.Laws), for which a reference implementation is given."},
 {"property": "C04", "status": "proved", "theorems": ["Verif.simulate1D_covariance", "Verif.simulate2D_covariance", "Verif.simulate3D_covariance", "Verif.wrapCov2_neg", "Verif.wrapCov3_neg", "Verif.wrapCov_neg_unrotated"], "note": "In two and three dimensions the covariance is the mean of the values at the lag and at the opposite lag; the two are equal unless the lag is half the padded grid in some direction and the variogram is rotated (lemmas wrapCov2_neg, wrapCov3_neg, wrapCov_neg_unrotated)."},
 {"property": "C05", "status": "proved", "theorems": ["Verif.simulate1D_law", "Verif.simulate2D_law", "Verif.simulate3D_law", "Verif.clippedCov1_variance", "Verif.clippedCov2_variance", "Verif.clippedCov3_variance", "Verif.simulate1D_clipping_occurs"], "note": "Clipping does occur: a one-dimensional Gaussian variogram has variance above its sill."},
 {"property": "C06", "status": "proved", "theorems": ["Verif.simulate1D_law", "Verif.simulate2D_law", "Verif.simulate3D_law"], "note": "The law is stated as a function of the index difference."},
 {"property": "C07", "status": "proved", "theorems": ["Verif.simulate1D_constant", "Verif.simulate2D_constant", "Verif.simulate3D_constant"], "note": ""},
 {"property": "C08", "status": "proved", "theorems": ["Verif.spectrum1_nonneg", "Verif.simulate1D_covariance_convex"], "note": ""},
 {"property": "C09", "status": "partial", "theorems": ["Verif.simulate1D_spherical_partial", "Verif.simulate2D_spherical", "Verif.simulate3D_spherical_partial", "Verif.simulate1D_wrap_refuted", "Verif.padding3D_dip_refuted"], "note": "False as stated for rotated variograms: in 1D the padding uses the main range even when the azimuth makes the range along the line longer than the rule allows for, and in 3D a dip makes the vertical padding too short (both with witnesses). Proved in 2D for every azimuth without dip, in 1D and 3D under the stated condition on the angles."},
 {"property": "C10", "status": "proved", "theorems": ["Verif.seed_reproducible", "Verif.seed_reproducible_reachable"], "note": ""},
 {"property": "C100", "status": "partial", "theorems": ["Verif.Interp.spline_spec", "Verif.Interp.spline_exists", "Verif.Interp.spline_exact", "Verif.Interp.spline_best", "Verif.Interp.spline_far", "Verif.Interp.spline_few", "Verif.Interp.interpolate_methods", "Verif.Interp.spline_violation"], "note": "Proved for places less than 1e10 above the point before them. Beyond that the code violates the statement: the first cubic is used and the extrapolation value is not (spline_far, spline_violation). With one or two points the behaviour is undefined, with none it throws (spline_few); two equal places give a result that is not finite."},
 {"property": "C101", "status": "proved", "theorems": ["Verif.normal_describes", "Verif.normal_quantile_ends", "Verif.normal_quantile01", "Verif.normal_setParameters"], "note": "The complementary error function and its inverse are taken as exact. For p = 0 and 1, which the assertion in Quantile admits, both quantile functions throw: normal_quantile_ends."},
 {"property": "C102", "status": "partial", "theorems": ["Verif.normal_potential", "Verif.normal_potential_lower", "Verif.normal_potential_two_partial", "Verif.normal_potential_two_violation"], "note": "Proved; for two limits if the probability between them is more than 1e-6. Below that the code violates the statement, since it takes the width of the interval for its probability: normal_potential_two_violation."},
 {"property": "C103", "status": "partial", "theorems": ["Verif.phiInverse_partial", "Verif.phiInverse_close", "Verif.phiInverse_ends", "Verif.phiInverse_tail_violation"], "note": "Proved if y is more than 1e-6 away from the distribution function at mean + c std_dev, c = -10, -1, 0, 1, 10 (phiInverse_close). Else only the distribution function is met within 1e-6. The code violates the statement in the tail: from 1 - 1e-6 on the result is mean + 10 std_dev, where the quantile is less than mean + 5 std_dev (phiInverse_tail_violation)."},
 {"property": "C104", "status": "partial", "theorems": ["Verif.unif01Open_range", "Verif.drawLower_range", "Verif.drawUpper_range", "Verif.drawTwoSided_range", "Verif.drawLower_quantile_partial", "Verif.drawLower_tail_violation", "Verif.drawTwoSided_tail_violation", "Verif.drawLower_atom_violation"], "note": "The limits and failures are proved. The law: for a lower limit the draw is, up to the errors of PhiInverse (C103), the quantile of the truncated law at the uniform number, if that is not close to the limit (drawLower_quantile_partial). The code violates the statement on the law: limits that leave a probability of at most 1e-6 give a constant (drawLower_tail_violation, drawTwoSided_tail_violation), and uniform numbers close to 1 all give mean + 10 std_dev (drawLower_atom_violation)."},
 {"property": "C105", "status": "partial", "theorems": ["Verif.logNormal_describes_partial", "Verif.logNormal_quantile_ends", "Verif.logNormal_setParameters_violation", "Verif.logNormal_default_violation"], "note": "Proved for new objects with parameters. The code violates the statement after SetParameters: draws are those of the parameters before the call (logNormal_setParameters_violation); an object of the default constructor draws from the law with parameters 0 and 1 but has quantiles 1 only, and after SetParameters it draws ones only (logNormal_default_violation)."},
 {"property": "C106", "status": "partial", "theorems": ["Verif.beta_partial", "Verif.betaCells_tendsto", "Verif.beta_draws_tendsto", "Verif.beta_pdf", "Verif.beta_pdf_violation", "Verif.beta_quantile_violation", "Verif.beta_far_violation"], "note": "Proved for Cdf within 2^31 cells of min_val, for Quantile at the multiples of 1/nx, and up to an error of 1/nx in probability for Quantile and draws. The code violates the rest: Pdf is the density moved by half a cell to the right (its integral is in beta_pdf, an example with 3/4 in beta_pdf_violation), between multiples of 1/nx Quantile is linear in p and not the inverse of Cdf (beta_quantile_violation), and far to the right the number of the cell overflows an int (beta_far_violation)."},
 {"property": "C107", "status": "partial", "theorems": ["Verif.betaEnd_partial", "Verif.betaEnd_pdf_violation", "Verif.betaEnd_mass_violation"], "note": "Proved for Cdf at all arguments, for the probabilities of both ends, and for Quantile and draws between the ends up to (1 - p_min - p_max)/nx in probability. The code violates the rest: see C106 for Quantile and Pdf between the ends; Pdf is infinite in the ends also without mass (betaEnd_pdf_violation); the assertions admit masses of more than 1 together, for which Cdf decreases (betaEnd_mass_violation)."},
 {"property": "C108", "status": "proved", "theorems": ["Verif.Py.generate_spec", "Verif.Py.extrapolate_spec", "Verif.Py.extrapolate_proportional", "Verif.Py.extrapolate_clean", "Verif.Py.generate_stream", "Verif.Py.extrapolate_throws", "Verif.Py.extrapolate_ignores"], "note": "The least-squares solver of NumPy is modelled by its documentation (the solution of least norm). extrapolate_ignores: the argument ex_nmax has no effect. extrapolate_throws: step 0, smallest size 1 and an empty range are rejected, the latter two by a division by zero and by an index error."},
 {"property": "C109", "status": "partial", "theorems": ["Verif.Geo.findProjection_spec", "Verif.Geo.findDistance_spec", "Verif.Geo.isPointOnLine_spec", "Verif.Geo.findParameter_spec", "Verif.Geo.getLength_spec", "Verif.Geo.findDistanceAndSide_partial", "Verif.Geo.findDistanceAndSide_violation", "Verif.Geo.isParallel_violation", "Verif.Geo.isOverLapping_common", "Verif.Geo.isOverLapping_near"], "note": "Violated in two places. findDistanceAndSide_violation: the side is wrong for points whose projection is at or after the second point of the line; findDistanceAndSide_partial: it is right for the others. isParallel_violation: with the default limit 0, IsParallel is false for all pairs of lines."},
 {"property": "C11", "status": "proved", "theorems": ["Verif.getSeed_last", "Verif.getSeed_raises", "Verif.getSeed_after_simulation"], "note": ""},
 {"property": "C110", "status": "partial", "theorems": ["Verif.Geo.findNearest_partial", "Verif.Geo.findNearest_degenerate", "Verif.Geo.findNearest_violation"], "note": "findNearest_partial: correct if the line given as argument has two different points, with all combinations of ends; the line itself may be a point, and the lines may be parallel. Violated if the argument is a segment of length zero (findNearest_degenerate, findNearest_violation): the answer is the distance to the first point of the line."},
 {"property": "C111", "status": "partial", "theorems": ["Verif.Geo.intersectXY_partial", "Verif.Geo.intersectXY_infinite", "Verif.Geo.intersectXY_parallel", "Verif.Geo.intersectXY_violation_overlap", "Verif.Geo.intersectXY_violation_infinite"], "note": "intersectXY_partial: correct for segments that are not parallel; intersectXY_infinite: correct for a whole line and a segment with the argument for that. Violated for parallel segments that overlap, and for rays and whole lines, which are taken for segments."},
 {"property": "C112", "status": "proved", "theorems": ["Verif.Geo.ofNormal_spec", "Verif.Geo.ofPoints_spec", "Verif.Geo.plane_projection_spec", "Verif.Geo.isPointOnPlane_spec", "Verif.Geo.isOnPositiveSide_spec", "Verif.Geo.plane_findIntersection_spec", "Verif.Geo.plane_findIntersection_parallel", "Verif.Geo.plane_findIntersectionPt_spec", "Verif.Geo.plane_findLine_spec", "Verif.Geo.plane_findLine_parallel"], "note": "The comment in plane.hpp that FindIntersection(plane) does not work for horizontal planes is out of date: plane_findLine_spec has no such exception. Parallel planes and lines are reported as having no common point (plane_findIntersection_parallel), or as a line of one point, the origin (plane_findLine_parallel)."},
 {"property": "C113", "status": "partial", "theorems": ["Verif.Geo.triangle_findIntersection_spec", "Verif.Geo.triangle_findIntersection_parallel", "Verif.Geo.findNearestPoint_edges", "Verif.Geo.findNearestPoint_partial", "Verif.Geo.findNearestPoint_violation"], "note": "FindIntersection is proved. FindNearestPoint is correct for lines without ends (findNearestPoint_partial); for rays and segments it gives the distance to the edges if there is no common point (findNearestPoint_edges), which is wrong for a segment that ends above the triangle (findNearestPoint_violation)."},
 {"property": "C114", "status": "partial", "theorems": ["Verif.Geo.isInside_spec", "Verif.Geo.box_findDistance_outside", "Verif.Geo.box_findDistance_inside", "Verif.Geo.getCorner_spec", "Verif.Geo.findIntersections_partial", "Verif.Geo.findIntersections_two", "Verif.Geo.findIntersections_violation"], "note": "Distances, corners and IsInside are proved. findIntersections_partial: the list holds exactly the points of the line on sides that it is not parallel to; findIntersections_two: no three of them are different. Violated (findIntersections_violation): a line through edges or corners is returned once for each side there, so that the diagonal of a cube gives six points, where the documentation promises none, one or two."},
 {"property": "C115", "status": "proved", "theorems": ["Verif.Geo.transformation_spec", "Verif.Geo.transformation_rigid", "Verif.Geo.transformation_back"], "note": "The operations are described coordinate by coordinate in Spec/Transformation."},
 {"property": "C116", "status": "proved", "theorems": ["Verif.Geo.insideXY_connected", "Verif.Geo.insideXY_hull", "Verif.Geo.insideXY_unbounded", "Verif.Geo.insideXY_flip", "Verif.Geo.insideXY_convex"], "note": "The first four statements determine the answer for each point that is not on an edge. Nothing is claimed for points of edges."},
 {"property": "C117", "status": "partial", "theorems": ["Verif.Geo.xyExtent_spec", "Verif.Geo.polygon_empty", "Verif.Geo.isCounterclockwise_partial", "Verif.Geo.isCounterclockwise_violation", "Verif.Geo.isConvex_partial", "Verif.Geo.isConvex_violation", "Verif.Geo.makeConvex_partial", "Verif.Geo.makeConvex_convex", "Verif.Geo.makeConvex_violation_triangle", "Verif.Geo.makeConvex_violation_loop"], "note": "XYExtent is proved. IsCounterclockwise leaves out the edge from the last corner to the first: right if that term is zero, for example if the first corner is repeated at the end (isCounterclockwise_partial), otherwise wrong (isCounterclockwise_violation). IsConvex accepts strictly convex polygons if the orientation is recognised (isConvex_partial), rejects a triangle and accepts a star (isConvex_violation). MakeConvex deletes a corner of a triangle and does not end for a quadrangle; if it ends, IsConvex is true of the result (makeConvex_partial)."},
 {"property": "C118", "status": "partial", "theorems": ["Verif.Geo.getCircumferenceXY_partial", "Verif.Geo.getCircumferenceXY_violation", "Verif.Geo.distanceBetweenXY_partial", "Verif.Geo.distanceBetweenXY_violation", "Verif.Geo.findPointPosition_spec"], "note": "FindPointPosition is proved. GetCircumferenceXY leaves out the edge before the last corner and counts heights: 3 for the unit square. DistanceBetweenPointsXY inherits this: 0 for the first and the last corner of the unit square; it is right if the way is short (distanceBetweenXY_partial)."},
 {"property": "C119", "status": "proved", "theorems": ["Verif.Geo.tangentPointPoly_spec"], "note": ""},
 {"property": "C12", "status": "proved", "theorems": ["Verif.unseeded_replay"], "note": ""},
 {"property": "C120", "status": "partial", "theorems": ["Verif.Geo.bilinear_getPoint", "Verif.Geo.bilinear_setPtVector", "Verif.Geo.findIntersections_sound_partial", "Verif.Geo.findIntersections_found_partial", "Verif.Geo.findIntersections_violation_horizontal", "Verif.Geo.findIntersections_violation_end", "Verif.Geo.findIntersections_violation_outside", "Verif.Geo.findIntersections_violation_twist", "Verif.Geo.isAbove_near_partial", "Verif.Geo.isAbove_plane_partial", "Verif.Geo.isAbove_violation_quadrangle", "Verif.Geo.isAbove_violation_small"], "note": "GetPoint is proved. For lines that are not horizontal and surfaces with a clear twist, FindIntersections finds all points where the line passes through the surface, and gives only points of the line and of the surface extended by 5 and 0.1 per cent. It finds nothing for horizontal lines, ignores the ends of segments, reports points outside, and treats a twist that is small relative to the coordinates of the first corner as zero. IsAbove is right near surfaces with a twist out of the plane, never true for plane quadrangles that are not parallelograms, and uses a threshold that is wrong for small parallelograms."},
 {"property": "C121", "status": "partial", "theorems": ["Verif.volume_isInsideXY", "Verif.volume_isInsideTolerance", "Verif.volume_fromRelative", "Verif.volume_coords", "Verif.volume_isInside_partial", "Verif.volume_isInside_violation", "Verif.volume_checkSurface", "Verif.volume_checkSurface_regular", "Verif.concrete_volume"], "note": "All proved except IsInside(x, y, z) where a surface is not defined: the missing value (such as -999) is taken for a height, so that a point outside of the top is below it. A surface that is turned is accepted by its bounding box (C82)."},
 {"property": "C122", "status": "partial", "theorems": ["Verif.recalculateLZ_partial", "Verif.recalculateLZ_violation", "Verif.volume_extremes_partial", "Verif.volume_extremes_violation", "Verif.volume_ofBox", "Verif.volume_setters_partial", "Verif.volume_setters_return", "Verif.setDimensions_violation", "Verif.setSurfaces_own_violation", "Verif.volume_copy_partial", "Verif.volume_copy_violation", "Verif.findCenter_partial", "Verif.findCenter_violation"], "note": "The height is the greatest thickness at 100 times 100 sample points, which leave out the far sides (0.99 for a wedge of thickness 1). The extremes are those at the centres of the cells, never at the sides. A setter that throws has changed the volume and left the old height. SetSurfaces with the volume's own surfaces uses deleted objects. The copy constructor forgets the tolerance, which assignment keeps. FindCenter ignores the angle: the centre may be outside."},
 {"property": "C123", "status": "proved", "theorems": ["Verif.condDistr_spec", "Verif.condDistr_exact", "Verif.condDistr_singular", "Verif.condDistr_twice", "Verif.condDistr_none", "Verif.posterior1D_spec", "Verif.jointNormal_exists"], "note": "LAPACK and BLAS by their documentation. Such normal vectors exist for all positive semidefinite covariances (jointNormal_exists)."},
 {"property": "C124", "status": "partial", "theorems": ["Verif.identify_spec", "Verif.identify_kept", "Verif.identify_pairs_violation", "Verif.secondary_spec_partial", "Verif.secondary_none", "Verif.secondary_merged_violation", "Verif.secondary_primary_violation"], "note": "Proved for observations with the same local correlation and where no two are nearly the same. False in general: after observations were merged the local correlations are those of other observations, so that a secondary observation may count as primary; and a primary observation at the place of an earlier secondary one is dropped. Two observations that are nearly the same may be in different chains."},
 {"property": "C125", "status": "proved", "theorems": ["Verif.factorize_spec", "Verif.deFactorize_factorize", "Verif.factorize_deFactorize"], "note": "LAPACK's potrf by its documentation: it succeeds if there is such a factor. That there is one exactly for positive definite matrices, and only one, is proved."},
 {"property": "C126", "status": "partial", "theorems": ["Verif.draw_law_partial", "Verif.draw_violation", "Verif.setParameters_violation", "Verif.stdNormals_exists"], "note": "The draws are normal with the right expectation. The covariances are right exactly if the covariance matrix is diagonal: the code multiplies by the symmetric matrix that holds the factor instead of by the factor, so every variance is too large by the squares of the rest of its row. SetParameters does not change the covariances of the draws."},
 {"property": "C127", "status": "proved", "theorems": ["Verif.potential_spec", "Verif.eigen_exists", "Verif.potential_violation"], "note": "The constant for log(2 pi) is taken as exact; LAPACK's syev by its documentation. The covariance matrix is not checked: with an even number of negative eigenvalues a number is returned (potential_violation)."},
 {"property": "C128", "status": "partial", "theorems": ["Verif.sort3x3_spec", "Verif.findLargest_spec", "Verif.identityMatrix_spec"], "note": "Sort3x3 is right if all eigenvalues exceed -100000; if one does not, the code reads a column of index -1, outside the memory of the matrix."},
 {"property": "C129", "status": "partial", "theorems": ["Verif.grid4D_index", "Verif.grid4D_set_get", "Verif.grid4D_getIJKL", "Verif.grid4D_getIJKL_partial", "Verif.grid4D_getIJKL_violation", "Verif.grid4D_swap", "Verif.window_index", "Verif.window_swap_partial", "Verif.window_swap_violation", "Verif.window_extremes", "Verif.grid2D_extremes", "Verif.grid2D_extremes_violation", "Verif.grid3D_avg"], "note": "Violated in three places. GetIJKL is right only for cells with fourth index 0: the fourth index is always 0 and the third too large. Grid2DGeneral::Swap leaves the bounds, so that valid cells are read outside the memory. Grid2D::FindMin and FindMax give the greatest number (negated for FindMax) if all values are missing."},
 {"property": "C13", "status": "proved", "theorems": ["Verif.flat_advance", "Verif.flat_next"], "note": ""},
 {"property": "C130", "status": "partial", "theorems": ["Verif.storm_findIndex", "Verif.storm_center", "Verif.storm_outside", "Verif.storm_outside_z", "Verif.storm_bottom_violation", "Verif.storm_negative_violation", "Verif.storm_flat", "Verif.storm_flat_example"], "note": "Violated in two places. A point on the bottom surface is given the layer nk, which is not there, and FindIndex then fails in an assertion. A point one cell or more before the first side is converted to an unsigned number before it is compared, which has no defined value, so that the exception is not guaranteed."},
 {"property": "C131", "status": "partial", "theorems": ["Verif.storm_zInterp_ends", "Verif.storm_zInterp", "Verif.storm_interpolated", "Verif.storm_closest_partial", "Verif.storm_closest_extrapolates", "Verif.storm_closest_bottom_violation", "Verif.storm_closest_violation", "Verif.storm_avgRelThick", "Verif.storm_closest_outside", "Verif.storm_closest_top", "Verif.storm_closest_below_violation", "Verif.storm_ends_example"], "note": "Violated for GetValueClosestInZ: in the half of each layer below its centre it continues the line through this layer and the one before, so that the value may lie outside the range of all values; on and below the bottom it reads a layer that is not there; and the code for missing values is averaged like a value."},
 {"property": "C132", "status": "partial", "theorems": ["Verif.well_cont_logs", "Verif.well_disc_logs", "Verif.well_set_value", "Verif.well_count", "Verif.well_uppercase_partial", "Verif.well_uppercase_violation", "Verif.well_value_violation", "Verif.well_setMissing", "Verif.well_told"], "note": "Violated in two places. Values that are not there are read outside the memory (or stop the program in an assertion) instead of being missing. MakeLogsUppercase loses a log if two names differ only in case. Moreover a new well has no value for the number of its data and for being deviated."},
 {"property": "C133", "status": "partial", "theorems": ["Verif.block_well", "Verif.block_disc_partial", "Verif.block_disc_violation", "Verif.block_empty_violation"], "note": "Holds for continuous logs. Violated for discrete logs: the value is the integer part of the average of the codes, which the well may not have (facies 1 and 4 give facies 2); it is right where the log is constant in the cell. Violated for codes for missing values other than -999: the blocked well takes -999 for missing but holds the code of the first well. A well without values is read outside the memory."},
 {"property": "C134", "status": "proved", "theorems": ["Verif.gammln_accurate", "Verif.gammln_refuses", "Verif.bico_exact", "Verif.bico_small", "Verif.bico_refuses"], "note": "For real numbers: the rounding of doubles comes on top."},
 {"property": "C135", "status": "partial", "theorems": ["Verif.gammp_accurate", "Verif.gammp_lower_accurate", "Verif.gammp_upper_accurate", "Verif.gammp_domain", "Verif.gammp_underflow_violation", "Verif.gammp_poisson"], "note": "Proved for a < 100. Violated for a >= 100: where the exponential function of doubles underflows above a, the result is 0 instead of 1, e.g. gammp(100, 2000). For a >= 100 it is otherwise only proved that there is a result; the accuracy of the quadrature is not."},
 {"property": "C136", "status": "partial", "theorems": ["Verif.chi_create", "Verif.chi_pdf_accurate", "Verif.chi_cdf_accurate", "Verif.chi_negative", "Verif.chi_quantile_partial", "Verif.chi_quantile_one_violation", "Verif.chi_pdf_zero_violation"], "note": "Pdf and Cdf proved. Violated: Pdf(0) with two degrees of freedom is not a number instead of one half; Quantile(1) is finite. Quantile always gives a number that is not negative, 0 only for 0; that it is the inverse of Cdf is not proved."},
 {"property": "C137", "status": "partial", "theorems": ["Verif.wavelet_ricker", "Verif.wavelet_ricker_shape", "Verif.wavelet_resample", "Verif.wavelet_resample_violation", "Verif.wavelet_grow", "Verif.wavelet_shrink_violation"], "note": "Violated in two places. Resize to a smaller length writes before the memory of the new samples. Resample refuses multiples that are rounded down, e.g. from 0.1 to 0.3."},
 {"property": "C138", "status": "partial", "theorems": ["Verif.fault_faces", "Verif.fault_faces_violation", "Verif.segments_cross", "Verif.segment_increase", "Verif.face_opposite"], "note": "Going through a fault is undefined if it has no segments, or if a segment goes from a greater to a smaller cell number."},
 {"property": "C139", "status": "partial", "theorems": ["Verif.faults_round_trip", "Verif.faults_lost_violation", "Verif.faults_eof_violation", "Verif.faults_unquoted_violation", "Verif.faults_blank_violation", "Verif.faults_comment_violation", "Verif.faults_face_names"], "note": "Proved for faults with segments; those without are lost. Violated: the reader never returns if the file ends before the slash; names without quotes lose two characters; what is written of names with white space is refused, as are comments without a blank after the dashes."},
 {"property": "C14", "status": "partial", "theorems": ["Verif.Dsfmt.seeds_streams_differ", "Verif.seed_mod_32", "Verif.seed_differs_refuted"], "note": "Refuted as stated for seeds that agree modulo 2^32; proved for seeds that differ modulo 2^32."},
 {"property": "C140", "status": "partial", "theorems": ["Verif.SegyGeometry.segy_cells", "Verif.SegyGeometry.segy_lines", "Verif.SegyGeometry.segy_points", "Verif.segy_example", "Verif.segy_beyond_violation", "Verif.segy_far_violation", "Verif.segy_oblique_violation", "Verif.segy_oblique_example"], "note": "Points of lines are proved if no small quotient of steps is taken for 0. Violated in three places: FindIndex of lines accepts the line after the last one and lines between those that are there; it is undefined for points far outside; the point of lines that are not perpendicular is wrong if the in-lines are parallel to an axis."},
 {"property": "C141", "status": "partial", "theorems": ["Verif.segy_of_lines", "Verif.segy_example", "Verif.segy_grid_violation", "Verif.segy_grid_example", "Verif.segy_negative_violation", "Verif.segy_single_violation"], "note": "Proved for lines that are not negative. Violated in three places: the cube made from a grid exchanges the axes; negative lines are off by one; lines numbered downwards along an axis with one cell are taken to be numbered upwards."},
 {"property": "C142", "status": "partial", "theorems": ["Verif.SegyGeometry.segy_part", "Verif.SegyGeometry.segy_part_example", "Verif.SegyGeometry.segy_area", "Verif.SegyGeometry.segy_area_example", "Verif.SegyGeometry.segy_between_violation", "Verif.SegyGeometry.segy_zero_step_violation", "Verif.SegyGeometry.segy_reversed_violation"], "note": "Violated in three places: if the first line is moved up beyond the last one, the part has two lines after those asked for; a step of 0 is divided by; a last line before the first is not refused, and gives as many cells as a size_t can count."},
 {"property": "C143", "status": "partial", "theorems": ["Verif.segy_setup_lines", "Verif.segy_setup", "Verif.segy_setup_example", "Verif.segy_setup_traces", "Verif.segy_single_trace", "Verif.segy_single_trace_violation", "Verif.segy_setup_single"], "note": "The lines are right for all steps that are not parallel; the cells are proved for perpendicular ones and at least two lines of either kind. Violated for a single trace: the line of one kind is changed along the axis of the other."},
 {"property": "C144", "status": "partial", "theorems": ["Verif.segy_traces", "Verif.segy_traces_example", "Verif.segy_traces_middle_violation", "Verif.segy_traces_order_violation", "Verif.segy_traces_descending_violation"], "note": "Proved if the first trace is in a corner and no small quotient of steps is taken for 0. Violated in three places: with the first trace in the middle of a square, with a smaller cross-line after one that repeats the first, and with the in-lines of a single cross-line in descending order, the constructor divides by zero."},
 {"property": "C145", "status": "proved", "theorems": ["Verif.eclipse_cells", "Verif.eclipse_corners", "Verif.eclipse_set_corner", "Verif.eclipse_coord", "Verif.eclipse_corner_on_pillar", "Verif.eclipse_numbers_example"], "note": "eclipse_coord is about vectors of the right length; a vector that is too short is read beyond its end (eclipse_coord_violation)."},
 {"property": "C146", "status": "partial", "theorems": ["Verif.eclipse_surface_sides", "Verif.eclipse_point_in_cell", "Verif.eclipse_surface_depth_violation", "Verif.eclipse_box_violation", "Verif.eclipse_box_example"], "note": "Holds on the four sides of a cell. Violated inside: three coefficients of the polynomial in u and v are wrong, so that the depth and y are off by up to a sixteenth of a difference along one side, in every box too."},
 {"property": "C147", "status": "proved", "theorems": ["Verif.eclipse_column", "Verif.eclipse_active_pillars", "Verif.eclipse_layers", "Verif.eclipse_pillar_inside", "Verif.eclipse_mean_distance", "Verif.eclipse_active_example"], "note": "With no pair of active neighbours the mean distance is 0 divided by 0."},
 {"property": "C148", "status": "partial", "theorems": ["Verif.eclipse_local_coordinates", "Verif.eclipse_local_example", "Verif.eclipse_local_violation", "Verif.eclipse_find_layer", "Verif.eclipse_stack_example", "Verif.eclipse_one_layer_violation", "Verif.eclipse_thin_layer_violation", "Verif.eclipse_find_box", "Verif.eclipse_find_box_violation", "Verif.eclipse_pillar_violation", "Verif.eclipse_find_example"], "note": "Proved for at least two layers, each with a thickness. Violated: with one layer the search for a point inside of it never ends; where a line of constant v is parallel to the y axis in a column that is no parallelogram, u is 0; a layer without thickness is found in place of the next; a pillar of no height is divided by."},
 {"property": "C149", "status": "partial", "theorems": ["Verif.trend_sorted", "Verif.trend_sorted_violation", "Verif.trend_lower", "Verif.trend_upper", "Verif.trend_window", "Verif.trend_window_violation", "Verif.trend_sort", "Verif.trend_search_example"], "note": "Proved for vectors that are not empty; windows for different elements. Violated: an empty vector is read in the test for sorting; with equal elements the window leaves some of them out."},
 {"property": "C15", "status": "proved", "theorems": ["Verif.simulate_eq_advanced", "Verif.advanced_defaults"], "note": ""},
 {"property": "C150", "status": "partial", "theorems": ["Verif.trend_linear", "Verif.trend_linear_violation", "Verif.trend_bilinear", "Verif.trend_bilinear_example", "Verif.trend_resample", "Verif.trend_resample_violation", "Verif.trend_resample_before", "Verif.trend_resample_before_example"], "note": "Proved for places at least 1e-5 from the ends, and for new places from the first place on and before the last. Violated: in one dimension missing neighbours are used as numbers; the last place of the trend gets no number in resampling; if one new place is before the trend, none gets a number."},
 {"property": "C151", "status": "partial", "theorems": ["Verif.trend_constant", "Verif.trend_constant_example", "Verif.trend_constant_violation", "Verif.trend_variance", "Verif.trend_variance_violation", "Verif.trend_variance_few", "Verif.trend_variance_example", "Verif.trend_bins", "Verif.trend_bins_example", "Verif.trend_bins_violation", "Verif.trend_constant_none"], "note": "Proved for logs of one length, 2 to 46341 numbers, and observations not within 1e-5 inside the ends. Violated: longer logs are cut, shorter ones read beyond their end, and an empty first log hides the others; 46342 numbers overflow an int; one number is divided by zero; just inside the ends a part of an observation is lost."},
 {"property": "C152", "status": "partial", "theorems": ["Verif.trend_regression", "Verif.trend_regression_constant", "Verif.trend_regression_violation", "Verif.trend_regression_order", "Verif.trend_regression_example"], "note": "Proved: the estimate minimises the weighted squared distances plus 1e-4 times the sum of the squared places times the square of the slope; constants are reproduced. Violated: that penalty depends on the origin, so a line is lost far from it; of observations at one place just outside the window only the last is used."},
 {"property": "C153", "status": "partial", "theorems": ["Verif.trend_value_1d", "Verif.trend_value_2d", "Verif.trend_get_value_2d", "Verif.trend_value_bounds", "Verif.trend_value_3d_partial", "Verif.trend_value_3d_violation", "Verif.trend_value_3d_in", "Verif.trend_value_3d_example", "Verif.trend_value_example", "Verif.trend_value_3d_outside"], "note": "Proved in one and two dimensions; bounds in all. Violated in three dimensions: the weights of the layers are exchanged, so that the value at the place of a layer is the one of the next layer."},
 {"property": "C154", "status": "partial", "theorems": ["Verif.trend_limits", "Verif.trend_truncate", "Verif.trend_mean", "Verif.trend_mean_violation", "Verif.trend_check", "Verif.trend_check_violation", "Verif.trend_statistics_example"], "note": "Proved for two and three dimensions; limits and truncation in all. Violated in one dimension: the first number is left out of the mean and of the check, so that scaling misses the mean asked for by the factor 1 + first / sum of the others."},
 {"property": "C155", "status": "partial", "theorems": ["Verif.SegyValues.segy_trace_of_data", "Verif.SegyValues.segy_trace_of_data_short", "Verif.SegyValues.segy_trace_of_header", "Verif.SegyValues.segy_legal_index", "Verif.SegyValues.segy_trace_copy", "Verif.SegyValues.segy_trace_copy_violation", "Verif.SegyValues.segy_all_values", "Verif.SegyValues.segy_longest", "Verif.SegyValues.segy_traces_example"], "note": "Proved, except for copies. Violated: copying a trace made of numbers reads a header behind a null pointer."},
 {"property": "C156", "status": "partial", "theorems": ["Verif.SegyValues.segy_value_quadratic", "Verif.SegyValues.segy_value_linear_partial", "Verif.SegyValues.segy_value_first_column_violation", "Verif.SegyValues.segy_value_centre", "Verif.SegyValues.segy_value_closest", "Verif.SegyValues.segy_value_outside", "Verif.SegyValues.segy_value_example", "Verif.SegyValues.segy_value_quadratic_example"], "note": "Proved except in the first and the last column. Violated there: the neighbour is taken from the row before or after. Rounding and the search for the lateral cell are not in this model."},
 {"property": "C157", "status": "proved", "theorems": ["Verif.SegyValues.segy_table_restored", "Verif.SegyValues.segy_sort_index", "Verif.SegyValues.segy_sort_ilxl", "Verif.SegyValues.segy_table_example"], "note": "Proved."},
 {"property": "C158", "status": "partial", "theorems": ["Verif.SegyValues.segy_stored_trace_partial", "Verif.SegyValues.segy_stored_trace_violation", "Verif.SegyValues.segy_stored_trace_above_violation", "Verif.SegyValues.segy_samples_partial", "Verif.SegyValues.segy_samples_violation", "Verif.SegyValues.segy_padding_example"], "note": "Proved for a surface in the cube with data that fit, and for a lower surface below the start of the cube. Violated otherwise: data that do not fit are written beyond the trace, a surface above the cube gives a negative count converted to size_t, and with both surfaces above the cube the whole trace is read without an error."},
 {"property": "C159", "status": "partial", "theorems": ["Verif.TraceHeader.segy_header_round_trip", "Verif.TraceHeader.segy_header_formats", "Verif.TraceHeader.segy_header_standard", "Verif.TraceHeader.segy_header_check", "Verif.TraceHeader.segy_header_check_violation", "Verif.TraceHeader.segy_header_scale", "Verif.TraceHeader.segy_header_coordinate", "Verif.TraceHeader.segy_header_coordinate_y", "Verif.TraceHeader.segy_header_coordinate_violation", "Verif.TraceHeader.segy_header_stale_scale_violation", "Verif.TraceHeader.segy_header_offset_violation", "Verif.TraceHeader.segy_header_example"], "note": "Proved for formats with fields apart, which the named ones are, coefficients with a scale of their own, coordinates that fit an int and an offset that is set where the format has one. Violated: the check accepts fields that share bytes; coordinates are truncated, not rounded; a coefficient of one leaves the old scale; the offset of the format SIP is not set when all traces are written."},
 {"property": "C16", "status": "proved", "theorems": ["Verif.explicit_padding_1D", "Verif.explicit_padding_2D", "Verif.explicit_padding_3D", "Verif.isTotal_explicit", "Verif.fftSize_unique"], "note": ""},
 {"property": "C160", "status": "partial", "theorems": ["Verif.CommonHeaders.segy_text_codes", "Verif.CommonHeaders.segy_text_line", "Verif.CommonHeaders.segy_text_refused", "Verif.CommonHeaders.segy_text_violation", "Verif.CommonHeaders.segy_text_empty_violation", "Verif.CommonHeaders.segy_text_example", "Verif.CommonHeaders.segy_binary_round_trip", "Verif.CommonHeaders.segy_binary_violation", "Verif.CommonHeaders.segy_binary_example"], "note": "Proved for texts without the character 128, fewer than 32768 samples and steps below 32.768. Violated: the character 128 is read beyond the table; the lines of the empty text are longer than 80 bytes and begin with another byte, as the source is in the repository; the number of samples is cut to 16 bits; a longer step is undefined behaviour."},
 {"property": "C161", "status": "partial", "theorems": ["Verif.LogKit.log_should", "Verif.LogKit.log_should_phase", "Verif.LogKit.log_without_library", "Verif.LogKit.log_with_library", "Verif.LogKit.log_one_phase_partial", "Verif.LogKit.log_one_phase_violation", "Verif.LogKit.log_call", "Verif.LogKit.log_buffer", "Verif.LogKit.log_counts", "Verif.LogKit.log_level_violation", "Verif.LogKit.log_screen", "Verif.LogKit.log_remove", "Verif.LogKit.log_screen_violation", "Verif.LogKit.log_end", "Verif.LogKit.log_formatted", "Verif.LogKit.log_heading", "Verif.LogKit.log_example"], "note": "Proved for levels up to 64 and phases that are not negative. Violated: after the stream of the screen is removed, setting the screen again deletes another stream or writes outside of the streams; a stream for one phase has the messages of all phases from the thousandth on; a set of levels as a level and long formatted texts write outside of memory."},
 {"property": "C162", "status": "partial", "theorems": ["Verif.SegyCheck.segy_header_ok", "Verif.SegyCheck.segy_header_missing", "Verif.SegyCheck.segy_header_missing_example", "Verif.SegyCheck.segy_steps_partial", "Verif.SegyCheck.segy_steps_violation", "Verif.SegyCheck.segy_steps_crossline_violation", "Verif.SegyCheck.segy_control_partial", "Verif.SegyCheck.segy_control_example", "Verif.SegyCheck.segy_control_violation"], "note": "Proved when the first two traces are on one inline, or the first and third on one crossline, and the second is on another crossline than the first. Violated otherwise: a denominator has the wrong sign, so that wrong steps are found whenever the inlines have a step in the coordinate; if the first two traces are on one crossline there is a division by zero. How the third and fourth trace are chosen is not in the model."},
 {"property": "C163", "status": "partial", "theorems": ["Verif.SegyCheck.segy_numbers", "Verif.SegyCheck.segy_step_counts", "Verif.SegyCheck.segy_frequent", "Verif.SegyCheck.segy_bogus_keeps", "Verif.SegyCheck.segy_bogus_only", "Verif.SegyCheck.segy_bogus_regular", "Verif.SegyCheck.segy_bogus_regular_example", "Verif.SegyCheck.segy_bogus_outlier", "Verif.SegyCheck.segy_bogus_example", "Verif.SegyCheck.segy_bogus_violation", "Verif.SegyCheck.segy_bogus_between_violation"], "note": "All but the last sentence is proved. Violated: the lines on both sides of a missing line match the step and are set undefined; with a wrong number between others, a neighbour is lost with it."},
 {"property": "C164", "status": "partial", "theorems": ["Verif.SegyCheck.segy_compare_symm", "Verif.SegyCheck.segy_compare_same", "Verif.SegyCheck.segy_compare_inline", "Verif.SegyCheck.segy_compare_crossline", "Verif.SegyCheck.segy_compare_both", "Verif.SegyCheck.segy_compare_example", "Verif.SegyCheck.segy_compare_both_example", "Verif.SegyCheck.segy_compare_violation", "Verif.SegyCheck.segy_compare_total_partial", "Verif.SegyCheck.segy_compare_total_example"], "note": "Proved but for the existence of a result, which is proved when the crosslines differ by more than the inlines: for two traces across a cell of a grid with steps of 25, the root of a negative number is converted to an integer, which is undefined behaviour."},
 {"property": "C17", "status": "proved", "theorems": ["Verif.simulationSize_spec", "Verif.simulationSize_le_1D", "Verif.simulationSize_le_2D", "Verif.simulationSize_le_3D", "Verif.simulationSize_doc_example", "Verif.simulationSize_negative_step_refuted"], "note": "Proved for steps and ranges whose padding fits in an int; the last theorem shows that it fails for a negative step."},
 {"property": "C18", "status": "partial", "theorems": ["Verif.padding_isLeast", "Verif.padding_covers", "Verif.padding_near_partial", "Verif.padding_not_least_refuted", "Verif.simulationSize_spec", "Verif.padding_zero_step_ub", "Verif.padding_huge_ub"], "note": "Modelled with rounding. The padding is longer than the range and the padded grid covers the (rounded) multiple; it is the least padding for the rounded quotients, and at most one cell off the exact least padding. Exact minimality is refuted with a witness (rounding of range/step)."},
 {"property": "C19", "status": "partial", "theorems": ["Verif.simulationSize_dims_partial", "Verif.simulationSize_dims_refuted", "Verif.simulationSize_length"], "note": "Refuted for a negative step in a used direction; proved for non-negative steps."},
 {"property": "C20", "status": "partial", "theorems": ["Verif.findNewSize_least_partial", "Verif.findNewSizeWith_least", "Verif.findNewSize_lt_two_mul", "Verif.findNewSize_eq_self", "Verif.findNewSize_one_even_refuted", "Verif.findNewSize_large_ub", "Verif.findNewSize_zero_ub", "Verif.findNewSize_underestimate", "Verif.findNewSize_double_refuted", "Verif.findNewSize_float_refuted"], "note": "Modelled with rounding and an inexact logarithm. Least 7-smooth (even) size proved up to 2^24 (double logarithms) or 2^17 (float); false for even requests at n=1, for 2^24+1 (float conversion of the size) and for 2^22+1 with float logarithms (witnesses); formally undefined from 65536 on a platform where out-of-range double-to-size_t conversion is undefined (witness)."},
 {"property": "C21", "status": "partial", "theorems": ["Verif.createVariogram_params", "Verif.createVariogramDefault_params", "Verif.createVariogram_zero_range_refuted", "Verif.createVariogram_negative_range"], "note": "defaults for negative ranges, degree conversion, unit sill proved; \"0 or negative\" replacement is false for 0 (witness)"},
 {"property": "C22", "status": "partial", "theorems": ["Verif.createVariogram_names_partial", "Verif.createVariogram_type", "Verif.createVariogram_nonAscii_ub"], "note": "proved for ASCII strings; for other strings toupper gets a negative char (undefined behaviour, proved in the model)"},
 {"property": "C23", "status": "proved", "theorems": ["Verif.corr_zero", "Verif.corr_bounds", "Verif.corr_zero_power_zero_refuted"], "note": "power>0 is necessary: witness for power=0"},
 {"property": "C24", "status": "proved", "theorems": ["Verif.corr_neg"], "note": ""},
 {"property": "C25", "status": "proved", "theorems": ["Verif.corr_antitone_ray", "Verif.corr_antitone_dist"], "note": ""},
 {"property": "C26", "status": "proved", "theorems": ["Verif.corr1D_at_range", "Verif.corr_along_axes", "Verif.corr_beyond_range", "Verif.normDist_axes"], "note": ""},
 {"property": "C27", "status": "proved", "theorems": ["Verif.corr_arity"], "note": ""},
 {"property": "C28", "status": "proved", "theorems": ["Verif.corr3_eq_normDist", "Verif.frame_orthonormal", "Verif.normDist_eq_zero_iff"], "note": ""},
 {"property": "C29", "status": "proved", "theorems": ["Verif.corr_half_turn", "Verif.corr_full_turn", "Verif.corr_isotropic", "Verif.corr_rotation_equivariant"], "note": ""},
 {"property": "C30", "status": "proved", "theorems": ["Verif.fftCovGrid_smoothing_off", "Verif.kernel_off"], "note": ""},
 {"property": "C31", "status": "proved", "theorems": ["Verif.fftCovGrid1D_value", "Verif.fftCovGrid2D_value", "Verif.fftCovGrid3D_value", "Verif.kernel_spec", "Verif.findVariogramRanges_close"], "note": "the extents are those of the range ellipsoid up to 0.0008 of the largest range: the source uses 3.14 for pi"},
 {"property": "C32", "status": "proved", "theorems": ["Verif.fftCovGrid1D_value", "Verif.fftCovGrid2D_value", "Verif.fftCovGrid3D_value", "Verif.lag_spec"], "note": ""},
 {"property": "C33", "status": "partial", "theorems": ["Verif.fftCovGrid1D_symmetric", "Verif.fftCovGrid2D_symmetric_partial", "Verif.fftCovGrid3D_symmetric_partial", "Verif.fftCovGrid_symmetric_unrotated", "Verif.fftCovGrid2D_symmetric_refuted"], "note": "always in 1D, without rotation, and away from half-grid lines; false on the half-grid line of an even 2D grid with rotated anisotropy (witness)"},
 {"property": "C34", "status": "proved", "theorems": ["Verif.fftw_irrelevant"], "note": ""},
 {"property": "C35", "status": "proved", "theorems": ["Verif.fftGrid2D_roundtrip", "Verif.fftGrid3D_roundtrip", "Verif.fft1D_roundtrip"], "note": "FFTW enters through the structure Fftw.Laws (definition of the unnormalised r2c/c2r DFT), shown satisfiable by fftw_laws_inhabited. Exact real arithmetic."},
 {"property": "C36", "status": "proved", "theorems": ["Verif.fftGrid2D_convolve", "Verif.fftGrid3D_convolve"], "note": "Convolve on 2D and 3D grids, same FFTW laws. Exact real arithmetic."},
 {"property": "C37", "status": "proved", "theorems": ["Verif.Dsfmt.uniform_inRange", "Verif.Dsfmt.draws_inRange", "Verif.Dsfmt.draws_follow_sequence"], "note": "For all seeds, all numbers of draws and all interleavings of the draw functions; also from every admissible state. The draws are shown to be those of the published recursion."},
 {"property": "C38", "status": "partial", "theorems": ["Verif.Dsfmt.blocks_agree", "Verif.Dsfmt.blocks_midBuffer_refuted"], "note": "Proved for every admissible state in which the array is used up (as after seeding or after a multiple of 382 draws) and every admissible length. Refuted otherwise: if the array is not used up the number drawn after the block is one of the numbers of the block."},
 {"property": "C39", "status": "proved", "theorems": ["Verif.Dsfmt.recursion_build_independent", "Verif.Dsfmt.generator_build_independent"], "note": ""},
 {"property": "C40", "status": "proved", "theorems": ["Verif.Dsfmt.seeding_admissible", "Verif.Dsfmt.arraySeeding_admissible", "Verif.Dsfmt.seeding_determined", "Verif.Dsfmt.arraySeeding_determined"], "note": "Both seeding functions; for both the whole state is given by an independent description of the published procedure."},
 {"property": "C41", "status": "proved", "theorems": ["Verif.object_eq_global", "Verif.object_seeded_later"], "note": "All finite sequences of calls (uniform, open uniform, integer, normal, reported seed, reseeding), including the ways they can fail."},
 {"property": "C42", "status": "proved", "theorems": ["Verif.Random.norm01_spec", "Verif.Random.norm01_range", "Verif.Random.norm01_returns_iff", "Verif.Random.norm01_bounded", "Verif.Random.norm01_finite_refuted"], "note": "The value is determined from the uniform numbers, the loops stop at the first accepted pair; the NaN is shown on an admissible state. Also: no value exceeds 12.27. Exact real arithmetic."},
 {"property": "C43", "status": "partial", "theorems": ["Verif.simulate_clean", "Verif.simulate_zero_step_ub", "Verif.simulateNone_ub", "Verif.simulate_negative_step_refuted"], "note": "No undefined behaviour and no exception for valid arguments in every reachable state; the refutations outside the precondition are proved too. Not excluded: the division by zero inside the tail branch of the normal sampler (see C42), which would need a statement about which pairs of words a seeded stream contains."},
 {"property": "C44", "status": "partial", "theorems": ["Verif.Threads.calls_sequential", "Verif.Threads.calls_overlapping_refuted", "Verif.Threads.calls_overlapping_witness", "Verif.Threads.calls_draw_lung", "Verif.Threads.calls_draw_lung_witness", "Verif.Threads.calls_past_state", "Verif.Threads.calls_own_generators", "Verif.Threads.simulate_sequential", "Verif.Threads.simulate_overlapping_refuted", "Verif.Threads.simulate_overlapping_same", "Verif.Threads.simulate_overlapping_witness", "Verif.advancedSimulate_words"], "note": "Refuted with witnesses, in a sequentially consistent model with single accesses as steps (renewal of the state as one step). Two overlapping simulate calls, in any dimension, can each return what they would return if called first; after seed(1) the same two calls one after the other return different fields. Proved for calls that do not overlap and for separate generators. advancedSimulate_words shows that a call with a seed in force is a function of the words it draws."},
 {"property": "C45", "status": "proved", "theorems": ["Verif.simulate2DGrid_repeats", "Verif.simulate2DGrid_twice", "Verif.simulate2DGrid_draws", "Verif.simulate2DGrid_unseeded_zero"], "note": ""},
 {"property": "C46", "status": "proved", "theorems": ["Verif.grid2D_index", "Verif.grid2D_index_outside", "Verif.grid2D_isValidIndex", "Verif.grid3D_index", "Verif.grid2D_get_set", "Verif.grid3D_get_set"], "note": ""},
 {"property": "C47", "status": "proved", "theorems": ["Verif.setters_fresh", "Verif.step_fresh"], "note": ""},
 {"property": "C48", "status": "proved", "theorems": ["Verif.cov_add_variogram"], "note": ""},
 {"property": "C49", "status": "proved", "theorems": ["Verif.covTable_lookup", "Verif.covTable_symm", "Verif.covTable_edge", "Verif.covTable_edge_refuted"], "note": "Floats exact. The boundary lag ny is answered with another lag's value or past the table, as the statement says."},
 {"property": "C50", "status": "proved", "theorems": ["Verif.writeShort_bytes", "Verif.writeInt_bytes", "Verif.writeDouble_bytes", "Verif.readShort_value", "Verif.readInt_value", "Verif.readDouble_value", "Verif.readNumber_eof", "Verif.readShort_writeShort", "Verif.readInt_writeInt", "Verif.readDouble_writeDouble", "Verif.read_other_order", "Verif.writeArray_singles", "Verif.readArray_writeArray", "Verif.readArray_singles", "Verif.readArray_eof", "Verif.emptyArray_ub"], "note": "All values, both byte orders, single numbers and arrays, machines of either byte order. Failures of the medium other than end of file are not modelled. Empty arrays are undefined behaviour (emptyArray_ub)."},
 {"property": "C51", "status": "proved", "theorems": ["Verif.ieee2Ibm_truncates", "Verif.ieee2Ibm_error", "Verif.ieee2Ibm_zeros", "Verif.ibm2Ieee_exact", "Verif.ibm_ieee_ibm", "Verif.ieee_ibm_ieee", "Verif.ieee_ibm_ieee_error", "Verif.ieee2Ibm_denormal_wrong", "Verif.ieee2Ibm_inf_finite", "Verif.ibm2Ieee_tiny_wrong", "Verif.ibm2Ieee_overflow", "Verif.ibm2Ieee_unnormalised_wrong", "Verif.readIbm_writeIbm", "Verif.writeIbmArray_singles"], "note": "Claim holds for normal and normalised numbers in range. Outside: denormal, infinite, tiny, too large and unnormalised numbers are converted wrongly, with witnesses."},
 {"property": "C52", "status": "partial", "theorems": ["Verif.uppercase_idempotent", "Verif.chomp_spec", "Verif.chomp_tab_refuted", "Verif.getTokens_spec", "Verif.getTokens_total", "Verif.substitute_partial", "Verif.substitute_length_refuted", "Verif.substitute_diverges"], "note": "Uppercase (ASCII), splitting and trimming of blanks are proved for all strings. Chomp keeps other white space (chomp_tab_refuted). Substitute is correct for texts of equal length without common characters; other lengths are refuted and a replacement containing the replaced text never ends."},
 {"property": "C53", "status": "proved", "theorems": ["Verif.simulate2D_value", "Verif.simulate3D_value", "Verif.simulate2D_law", "Verif.simulate3D_law"], "note": "The value theorems say which draws field k uses, for every number of fields; the laws include that the fields are uncorrelated (white noise) and independent (independent normal draws)."},
 {"property": "C54", "status": "partial", "theorems": ["Verif.Random.initializeFile_ok", "Verif.Random.initializeFile_cannotOpen", "Verif.Random.initializeFile_unchanged_refuted", "Verif.Random.initializeFile_unchanged_partial", "Verif.Random.writeSeed_replay"], "note": "The reported seed after a failed read is wrong (refuted); the stream itself is unchanged by any failed call."},
 {"property": "C55", "status": "partial", "theorems": ["Verif.parseAsciiArrayFast_spec", "Verif.parseAsciiArrayFast_short_refuted"], "note": "Reading from lines with enough fields is proved; the exception for short lines is refuted for every line that does not end with white space."},
 {"property": "C56", "status": "partial", "theorems": ["Verif.getQuotedTokens_partial", "Verif.getQuotedTokens_first_refuted", "Verif.getQuotedTokens_open_diverges"], "note": "Proved for lines that do not begin with a quotation mark; refuted with a witness for lines that do; an unclosed quotation diverges."},
 {"property": "C57", "status": "partial", "theorems": ["Verif.covTable_rangeX", "Verif.covTable_rangeX_bound", "Verif.covTable_rangeY", "Verif.covTable_rangeY_bound_refuted", "Verif.covTable_written", "Verif.covTable_written_corners_refuted"], "note": "x range proved; y range refuted with a witness, its actual meaning proved; file values proved, corners refuted."},
 {"property": "C58", "status": "proved", "theorems": ["Verif.Py.evSimulate_holds", "Verif.Py.evSimulate_flat_refuted", "Verif.Py.binned_spec", "Verif.Py.bins_partition"], "note": "The averages and the bins are proved for all grids; the last sentence (ny = 1 < nz) is proved as a theorem too."},
 {"property": "C59", "status": "proved", "theorems": ["Verif.Py.estimate_expectation", "Verif.Py.sq_diff_of_cov", "Verif.Py.estimate_lag_of_cov"], "note": "Bins in which a reference point has no pair are excluded (they are nan)."},
 {"property": "C60", "status": "partial", "theorems": ["Verif.Py.midpoints_upper", "Verif.Py.midpoints_refuted", "Verif.Py.estimate_lag", "Verif.Py.dummy_estimate_refuted", "Verif.Py.dummy_estimate_witness", "Verif.Py.bins_aligned_partial", "Verif.Py.bins_aligned_refuted"], "note": "Both parts refuted (the first for every valid call); the second is proved when the farthest distances are multiples of the resolution."},
 {"property": "C61", "status": "proved", "theorems": ["Verif.Py.pick_all", "Verif.Py.pick_one", "Verif.Py.pick_regular", "Verif.Py.pick_regular_many"], "note": "The strategy 'random' is not modelled."},
 {"property": "C62", "status": "partial", "theorems": ["Verif.Py.variogram_members", "Verif.Py.starImport_refuted"], "note": "The exported names are refuted."},
 {"property": "C63", "status": "proved", "theorems": ["Verif.normal_law", "Verif.normal_law_unique", "Verif.normal_law_inexact", "Verif.nearNormal_moments", "Verif.uniform_exists"], "note": "The uniform numbers are ideal here (independent, continuous); those of the generator are multiples of 2^-52 produced by a deterministic recursion (C14, C38)."},
 {"property": "C64", "status": "proved", "theorems": ["Verif.simulate1D_gauss", "Verif.simulate2D_gauss", "Verif.simulate3D_gauss"], "note": "As C63: ideal uniform numbers."},
 {"property": "C65", "status": "proved", "theorems": ["Verif.uniform_describes", "Verif.triangular_describes", "Verif.fractal_describes", "Verif.splitUniform_describes_partial", "Verif.delta_describes"], "note": "Uniform numbers are ideal (independent, uniform on [0, 1)). splitUniform_describes_partial lacks the density only, which is C66. A negative maximum (no maximum) of the power law is not covered."},
 {"property": "C66", "status": "partial", "theorems": ["Verif.uniform_describes", "Verif.triangular_describes", "Verif.fractal_describes", "Verif.splitUniform_pdf_refuted", "Verif.splitUniform_pdf_witness"], "note": "False for SplitUniform: Pdf tests x > max instead of x < max, is zero between the middle value and the maximum and positive on the whole line above the maximum, so it is not the density of any law. Proved for Uniform, Triangular and Fractal."},
 {"property": "C67", "status": "proved", "theorems": ["Verif.generalDiscrete_describes", "Verif.generalDiscrete_empty", "Verif.generalDiscrete_zero"], "note": "Exact arithmetic: with rounding the last cumulated value can be below 1, so that Quantile(1) reads past the end; this is outside the model."},
 {"property": "C68", "status": "proved", "theorems": ["Verif.fractal_upper", "Verif.fractal_upper_limit", "Verif.fractal_lower", "Verif.fractal_middle"], "note": "Uniform numbers are ideal. A negative maximum (no maximum) is not covered."},
 {"property": "C69", "status": "partial", "theorems": ["Verif.binomial_describes_partial", "Verif.binomial_quantile_refuted", "Verif.binomial_quantile_cdf_refuted", "Verif.binomial_of_code_partial"], "note": "Law, Pdf, Cdf proved for binomial coefficients computed right, which the code does for n to 36 (binomial_of_code_partial). Quantile violates the property: Quantile(1) is n-1, and Quantile(Cdf(k)) is k+1; proved instead that it is the least k with Cdf(k) > q for q < 1."},
 {"property": "C70", "status": "partial", "theorems": ["Verif.poisson_draws_partial", "Verif.poisson_draw_bounded", "Verif.poisson_draw_nonneg", "Verif.poisson_pdf_partial", "Verif.poisson_overflow", "Verif.poisson_cdf_refuted", "Verif.poisson_quantile_refuted", "Verif.poisson_cdf_violation", "Verif.poisson_quantile_violation"], "note": "Draws have the law for lambda < 10 and are never negative for any lambda; the law of the rejection method for lambda >= 10 (an approximate method: rounded constants) is not proved. Pdf right up to 12, undefined behaviour from 13. Cdf divides by k! and takes the wrong tail; Quantile overflows, with the incomplete gamma function of the code."},
 {"property": "C71", "status": "partial", "theorems": ["Verif.findNewSize_least_partial", "Verif.sizeOk_double", "Verif.sizeOk_float", "Verif.sizeOk_strict", "Verif.logAcc_rnd64", "Verif.logAcc_rnd32", "Verif.padding_isLeast", "Verif.padding_covers", "Verif.padding_near_partial", "Verif.findNewSize_double_refuted", "Verif.findNewSize_float_refuted", "Verif.padding_not_least_refuted", "Verif.simulate_large_refuted"], "note": "Proved in the stated ranges (`SizeOk`, `PadOk`). Fails for 2^24+1 cells (any logarithm) and 2^22+1 (float logarithms): the size is below the minimum and simulate without padding never returns a field. Padding can be one more than the least. Sizes between 2^17 and 2^22 with float logarithms are not decided."},
 {"property": "C72", "status": "partial", "theorems": ["Verif.corrFl_accurate", "Verif.corrFl_zero", "Verif.corrFl_neg", "Verif.corrFl_nan_refuted", "Verif.corrFl_above_one_refuted"], "note": "Proved for anisotropies up to 2^18. Refuted without the bound on the anisotropy (NaN, correctly rounded library), and the bound 1 is exceeded by rounding."},
 {"property": "C73", "status": "proved", "theorems": ["Verif.Py.ev2_estimate_spec", "Verif.Py.ev2_expectation", "Verif.Py.ev2_isotropic", "Verif.Py.ev2Simulate_holds", "Verif.Py.ev2Simulate_flat_refuted", "Verif.Py.ev2_no_close"], "note": "Components of SciPy are modelled by reachability. The covariance of the fields is a hypothesis of ev2_isotropic (what C04 and C31 prove where neither wrap-around nor clipping interferes). With one cell in y and several in z nothing is returned (ev2Simulate_flat_refuted); a close range that is not positive is an IndexError (ev2_no_close)."},
 {"property": "C74", "status": "partial", "theorems": ["Verif.uniformFl_draw_mem", "Verif.uniformFl_draw_global", "Verif.uniformFl_mono", "Verif.uniformFl_error", "Verif.uniformFl_max", "Verif.uniformFl_quantile_refuted", "Verif.generalDiscreteFl_partial", "Verif.generalDiscreteFl_quantile_one", "Verif.generalDiscreteFl_cdf_above", "Verif.generalDiscreteFl_quantile_fourteen", "Verif.generalDiscreteFl_draw_refuted"], "note": "Proved in full for draws of uniform numbers. The code violates the rest: Uniform::Quantile(1) can exceed the maximum; with six equal bins Quantile(1) reads past the end of the array; with nine the last cumulated probability exceeds 1; with fourteen a draw reads past the end in an admissible generator state. Proved for histograms: the error bounds, and the quantile for arguments up to 1 - (3 n + 1) 2^-52. Overflow of max - min is not represented."},
 {"property": "C75", "status": "partial", "theorems": ["Verif.Py.convergence_deltas", "Verif.Py.convergence_off", "Verif.Py.convergence_ok", "Verif.Py.padAnalyzer_entries", "Verif.Py.padAnalyzer_paddings", "Verif.Py.padAnalyzer_reproducible", "Verif.Py.padAnalyzer_theSeed", "Verif.Py.padAnalyzer_seed_zero_refuted", "Verif.Py.padAnalyzer_line_partial", "Verif.Py.padAnalyzer_grid_refuted", "Verif.Py.convergence_expectation_partial", "Verif.Py.concrete_padAnalyzer"], "note": "Proved: rows, fields used, paddings, reproducibility, the convergence analysis. Refuted: the number of fields (nmax is rounded down to 10 k + 1), the distances (grid, and a shift by one cell between estimate and correlation, so the expectation is not 0), the seed 0. Expectations are computed in one dimension with resolution factor 1; the first entry is 1 - corr(d) in every run there."},
 {"property": "C76", "status": "proved", "theorems": ["Verif.simulateFl_accurate", "Verif.simulate1DFl_near", "Verif.simulate2DFl_near", "Verif.simulate3DFl_near", "Verif.simulateFl_doc"], "note": "Overflow and fused multiply-add are not modelled. The transform library is assumed to be near the exact transform (Fftw.Near), not modelled. simulate*DFl_near hold for any variogram and smoothing, given the error of the single covariances."},
 {"property": "C77", "status": "proved", "theorems": ["Verif.getZ_weighted", "Verif.weightAt_eq_zero", "Verif.getZ_far", "Verif.getZ_node", "Verif.getZ_between", "Verif.getZ_continuous", "Verif.getZ_bilinear", "Verif.getZ_outside"], "note": "Real numbers instead of doubles. Points whose cell number does not fit an int are undefined behaviour in the code."},
 {"property": "C78", "status": "partial", "theorems": ["Verif.getZInside_cell_partial", "Verif.getZInside_edge", "Verif.getZInside_edgeY", "Verif.getZInside_violation", "Verif.getZ_accident", "Verif.hasNodes_ofGrid", "Verif.nodeX_last", "Verif.nodeY_last"], "note": "The code violates the claim: on the right and upper edge of every surface GetZInside gives the missing value although IsInsideSurface is true; interpolation between -998 and -1000 gives the missing value -999. Proved for each cell without its upper edges."},
 {"property": "C79", "status": "partial", "theorems": ["Verif.getXYIndex_node", "Verif.getXYIndex_getIJ", "Verif.findNearest", "Verif.findIndex_cell_partial", "Verif.findIndex_violation", "Verif.findIndex_single"], "note": "FindIndex violates the claim on the upper edges, where it gives GetNI()-1, which is no cell; and on a one-column surface with a length it gives indices that belong to no node. Proved for surfaces with two or more rows and columns away from the upper edges."},
 {"property": "C80", "status": "partial", "theorems": ["Verif.add_spec", "Verif.subtract_spec", "Verif.multiply_spec", "Verif.assign_spec", "Verif.min_spec", "Verif.max_spec", "Verif.avg_spec", "Verif.createNeighbourAvg_spec", "Verif.min_empty_violation", "Verif.add_violation"], "note": "Everything is proved but the last sentence, which the code violates: adding 1 to a node of value -1000 makes it missing for good. Min and Max of a surface without nodes are undefined behaviour."},
 {"property": "C81", "status": "proved", "theorems": ["Verif.addNonConform_spec", "Verif.subtractNonConform_spec", "Verif.multiplyNonConform_spec", "Verif.divideNonConform_spec", "Verif.addNonConform_regular", "Verif.nonConform_same", "Verif.addNonConform_constant", "Verif.divideNonConform_violation"], "note": "The comments in the header promise that missing areas shrink; they grow. Division by zero leaves the finite numbers. The other surface is not the surface itself."},
 {"property": "C82", "status": "partial", "theorems": ["Verif.localToGlobal_globalToLocal", "Verif.globalToLocal_localToGlobal", "Verif.localToGlobal_dist", "Verif.rot_getZ_node", "Verif.rot_getZ", "Verif.rot_box_contains", "Verif.rot_box_tight", "Verif.enclosesRectangle_partial", "Verif.enclosesRectangle_violation", "Verif.setAngle_violation", "Verif.rot_nonConform_spec", "Verif.boxed_ofGrid", "Verif.boxed_ofSurface", "Verif.boxed_setDimensions"], "note": "The code violates two of the claims: EnclosesRectangle compares with the bounding box and says yes to rectangles outside the surface (proved: the converse implication), and SetAngle does not update the box. The rest is proved."},
 {"property": "C83", "status": "partial", "theorems": ["Verif.resample_partial", "Verif.resample_violation", "Verif.resample_eq"], "note": "The code samples at multiples of the old node distance but gives the result the spacing width/(nx-1). Proved when the bounding box is a whole number of node distances wide and high; witness otherwise (a node at 3 holds the value of 2)."},
 {"property": "C84", "status": "partial", "theorems": ["Verif.irap_roundtrip_partial", "Verif.surfaceFile_roundtrip_partial", "Verif.irap_valid_becomes_missing", "Verif.irap_spacing_lost"], "note": "The code violates the statement for values within 5e-7 of 9999900, which are missing when read back; proved without them. Node distances below 5e-7 become 0. Doubles are exact: reading a decimal number does not round."},
 {"property": "C85", "status": "partial", "theorems": ["Verif.irap_read_safe_partial", "Verif.irap_negative_sizes", "Verif.irap_size_overflow"], "note": "The code violates it for negative sizes: NI = NJ = -1 with one value is accepted as a surface of 2^64 - 1 by 2^64 - 1 nodes, NI = -2147483648 overflows. Proved for files whose sizes are not negative."},
 {"property": "C86", "status": "proved", "theorems": ["Verif.irap_extend", "Verif.irap_cut"], "note": "Because the array reader insists on a character after the last number."},
 {"property": "C87", "status": "partial", "theorems": ["Verif.readNextQuoted_partial", "Verif.readNextQuoted_empty", "Verif.readNextQuoted_unclosed", "Verif.readNextQuoted_none"], "note": "The code violates it: an empty quotation gives the closing mark and the text up to the next one, and an unclosed one is accepted as the rest of the file. Proved for closed quotations that are not empty."},
 {"property": "C88", "status": "partial", "theorems": ["Verif.skipComments_spec", "Verif.skipComments_ub", "Verif.skipComments_space"], "note": "Proved if there is such a character. At the end of a file the code violates it: after a last comment line, or in an empty file, a character without a value is compared, and after trailing white space the stream has failed but is not at its end."},
 {"property": "C89", "status": "partial", "theorems": ["Verif.scanInt_local", "Verif.scanDouble_local", "Verif.readAsciiArrayFast_eq", "Verif.readAsciiArrayFast_last", "Verif.readAsciiArrayFast_glued", "Verif.readAsciiArray_write", "Verif.readAsciiArray_int", "Verif.readAsciiArray_fixed"], "note": "The readers differ in two ways, proved as witnesses: the fast one refuses a last number at the very end of a file, and accepts two numbers without white space between them. What the plain one reads before the end of the file, the fast one reads too."},
 {"property": "C90", "status": "partial", "theorems": ["Verif.Stat.missing_left_out", "Verif.Stat.maxElement_spec", "Verif.Stat.minElement_spec", "Verif.Stat.var_spec", "Verif.Stat.cov_spec", "Verif.Stat.cov_expectation", "Verif.Stat.cov_unbiased", "Verif.Stat.var_unbiased", "Verif.Stat.cov_single", "Verif.Stat.no_data"], "note": "The last sentence fails for a single value: its variance is 0 but the covariance divides 0 by 0, proved as a witness. The rest is proved."},
 {"property": "C91", "status": "proved", "theorems": ["Verif.krig1D_spec", "Verif.krig1D_best", "Verif.krig1D_throws", "Verif.krig1D_smooth", "Verif.krig1D_constant", "Verif.krig1D_count"], "note": "LAPACK is modelled by what it documents. At least one observation is assumed. A wrong number of observations is undefined behaviour, krig1D_count."},
 {"property": "C92", "status": "proved", "theorems": ["Verif.discardRestOfLine_spec", "Verif.discardRestOfLine_last"], "note": "Found missing by a wrong program in which the end of the line was not read."},
 {"property": "C93", "status": "proved", "theorems": ["Verif.nodalData_spec", "Verif.nodalData_perm", "Verif.nodalData_outside", "Verif.addDataToBlock_spec"], "note": "Which node a point belongs to is C79. A mean that is 99999 is dropped from blocks (finding)."},
 {"property": "C94", "status": "partial", "theorems": ["Verif.krig2D_spec", "Verif.krig2D_throws", "Verif.krig2D_best", "Verif.krig2D_gauss", "Verif.krig2D_empty", "Verif.krig2D_empty_violation"], "note": "Proved with at least one datum, for krig_all = true. The code violates the last sentence without data: the grid of residuals is then the trend, krig2D_empty_violation. LAPACK is modelled by what it documents; the OpenMP version is not modelled."},
 {"property": "C95", "status": "partial", "theorems": ["Verif.krig2D_blocks", "Verif.krig2D_blocks_honours", "Verif.krig2D_blocks_all", "Verif.krig2D_blocks_undefined", "Verif.krig2D_blocks_violation"], "note": "Success, windows and order are proved. Data nodes get their values if P/2 ranges are at least four nodes (up to 200 data, krig2D_blocks_honours). The code violates the rest, krig2D_blocks_violation: nodes left over when the grid is divided by ten do not use the data there; residual grids keep the trend where a block has no data. With more than 200 data and a range of less than one node the behaviour is undefined. No int overflow is assumed; the OpenMP version is not modelled."},
 {"property": "C96", "status": "partial", "theorems": ["Verif.krigCont_spec", "Verif.krigCont_throws", "Verif.krigCont_same", "Verif.krigCont_gauss", "Verif.krigCont_honours", "Verif.krigCont_idle", "Verif.krigCont_best", "Verif.krigCont_outside_violation", "Verif.krigCont_missing_violation", "Verif.krigCont_many_violation", "Verif.krigCont_float_violation"], "note": "All proved except where the code violates the statement: data outside the surface are compared with the code for missing values (krigCont_outside_violation), missing nodes get other values (krigCont_missing_violation), with more data than nodes nothing is done (krigCont_idle, krigCont_many_violation), and data that round to 99999 in float are dropped (krigCont_float_violation). The prediction theorem is for exact data; the conversion to float is an arbitrary function elsewhere."},
 {"property": "C97", "status": "partial", "theorems": ["Verif.krigCont_blocks", "Verif.krigCont_blocks_honours", "Verif.krigCont_blocks_all", "Verif.krigCont_blocks_undefined", "Verif.krigCont_blocks_violation"], "note": "Success, windows and order are proved. Data at nodes are honoured if P/2 ranges are longer than four nodes (up to 200 data, krigCont_blocks_honours). The code violates the rest, krigCont_blocks_violation: nodes left over when the size is divided by ten do not use the data there; residual surfaces keep the trend where a block has no data. With more than 200 data and a range of zero the behaviour is undefined. No int overflow, and not more data than nodes, is assumed."},
 {"property": "C98", "status": "partial", "theorems": ["Verif.krigIndex_spec", "Verif.krigIndex_gauss", "Verif.krigIndex_blocks", "Verif.krigIndex_outside", "Verif.krigIndex_violation"], "note": "All proved but the last sentence, which the code violates: another point in the same cell spoils a datum at a node (krigIndex_violation). Points outside the surface are undefined behaviour (krigIndex_outside). In blocks the mean is kept if P/2 ranges are at least four nodes and there are up to 200 points (krigIndex_blocks)."},
 {"property": "C99", "status": "partial", "theorems": ["Verif.Interp.linear_spec", "Verif.Interp.linear_exact", "Verif.Interp.linear_affine", "Verif.Interp.linear_far", "Verif.Interp.linear_undefined", "Verif.Interp.linear_violation"], "note": "Proved if the places increase strictly and the place is less than 1e10 above the point before it (affine functions without that). linear_far: beyond that distance the line through the first two points is used. The code violates the statement with a repeated point, whose special case continues the line before it: linear_violation."}
]}
