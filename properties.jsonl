{"id": "C01", "title": "Output length is exactly the requested number of cells", "statement": "simulate(v,nx,dx,ny,dy,nz,dz) returns a flat array with exactly nx values when ny<=1 or dy<0, exactly nx*ny values when ny>1, dy>=0 and (nz<=1 or dz<0), and exactly nx*ny*nz values otherwise, whatever padding, smoothing and seed are used.", "quantifier": "every variogram with positive ranges, all sizes, all positive steps of the used directions, all padding/smoothing settings, all generator states", "why_tests_cant": "the internal grid is larger than the output by an amount that depends on type, range, step and the 7-smooth rounding; tests try a handful of sizes", "anchors": ["src/gaussfft.cpp: SimulateWithAdvancedSettings, Simulate1D, Simulate2D, Simulate3D", "src/nrlib/variogram/gaussianfield.cpp: Simulate1DGaussianField, Simulate2DGaussianField, Simulate3DGaussianField"]}
{"id": "C02", "title": "Multi-dimensional output is Fortran ordered and is the low corner of the padded field", "statement": "In the array returned by simulate the value of grid cell (i,j,k) is at position i + nx*(j + ny*k), and it is the value of cell (i,j,k) of the stationary field generated on the padded grid: padding is cut off only at the high end of each axis.", "quantifier": "all grid sizes, all paddings, every cell", "why_tests_cant": "an index or stride mix-up is invisible on square grids and statistically invisible for isotropic variograms", "anchors": ["src/nrlib/fft/fftgrid2d.hpp: Initialize, GetRealGrid", "src/nrlib/fft/fftgrid3d.hpp: Initialize, GetRealGrid", "src/nrlib/grid/grid.hpp: GetIndex", "src/gaussfftinterface.cpp: simulate_docstring"]}
{"id": "C03", "title": "Simulated values are a fixed linear combination of the drawn normals", "statement": "For fixed variogram, grid and settings every returned value is a linear function, without constant term, of the standard normal numbers drawn for the call; so if the draws are centred the field has mean zero everywhere.", "quantifier": "all variograms, grids and settings, all vectors of drawn numbers", "why_tests_cant": "a test sees sample means with sampling noise; it cannot show that there is no bias at any cell", "anchors": ["src/nrlib/variogram/gaussianfield.cpp: Simulate1DGaussianField, Simulate2DGaussianField, Simulate3DGaussianField"]}
{"id": "C04", "title": "The field has exactly the periodic version of the requested covariance", "statement": "If the spectrum of the periodic covariance grid is non-negative, then for independent standard normal draws the covariance between any two returned cells equals the covariance-grid value at their lag (minimum image on the padded grid; for a rotated variogram and a lag of exactly half the padded grid, the mean of the two equally short images). With the default settings that is v.corr of the physical lag, wrapped around the padded grid.", "quantifier": "all variograms with non-negative grid spectrum, all sizes in one, two and three dimensions, every pair of cells", "why_tests_cant": "sample covariances converge slowly and only test a few lags; scaling mistakes cancel in correlation-based tests", "anchors": ["src/nrlib/variogram/gaussianfield.cpp: Simulate1DGaussianField, Simulate2DGaussianField, Simulate3DGaussianField", "src/nrlib/fft/fft.hpp: ComputeFFT1D, ComputeFFTInv1D", "src/nrlib/fft/fftgrid2d.hpp: DoFFT, DoInverseFFT"]}
{"id": "C05", "title": "Clipping negative spectrum never lowers the variance", "statement": "Without any assumption on the spectrum, the covariance of the returned field is the periodic function whose spectrum is the positive part of the spectrum of the requested covariance; in particular the variance at every cell is at least the requested sill (1), with equality exactly when nothing was clipped.", "quantifier": "all variograms, grids and settings, every pair of cells", "why_tests_cant": "which frequencies are clipped depends on variogram and padding and is not observable from a realisation", "anchors": ["src/nrlib/variogram/gaussianfield.cpp: lines 140-150 and 262-270 and 330-340 (max(real,0), sqrt)"]}
{"id": "C06", "title": "Stationarity", "statement": "The covariance between returned cells depends only on their index difference, and the variance is the same in every cell, including cells next to the grid edge, even when the spectrum is clipped.", "quantifier": "all variograms, grids and settings, every pair of cells and every common shift that stays inside the grid", "why_tests_cant": "edge effects show up only as small statistical differences between cells", "anchors": ["src/nrlib/variogram/gaussianfield.cpp"]}
{"id": "C07", "title": "Constant variogram gives a constant field", "statement": "simulate with variogram type 'constant' returns one and the same value in every cell, for every realisation, whatever the ranges, the grid and the padding (no smoothing); the value is the sum of the drawn normals divided by the square root of their number, so it has variance one.", "quantifier": "all grids in one to three dimensions, all paddings, all draws", "why_tests_cant": "requires every nonzero frequency to cancel exactly for all grid sizes", "anchors": ["src/nrlib/variogram/variogramtypes.hpp: ConstVario", "src/nrlib/variogram/gaussianfield.cpp"]}
{"id": "C08", "title": "One-dimensional exponential and spherical fields are never clipped", "statement": "For variogram types 'spherical' and 'exponential' (and general_exponential with power at most 1) the spectrum computed by one-dimensional simulate is non-negative for every grid, so C04 applies without extra assumption.", "quantifier": "all ranges, steps, grid sizes and paddings in one dimension", "why_tests_cant": "non-negativity must hold at every frequency of every grid size", "anchors": ["src/nrlib/variogram/gaussianfield.cpp: Simulate1DGaussianField", "src/nrlib/variogram/fftcovgrid.cpp: FFTCovGrid1D", "src/nrlib/variogram/variogramtypes.hpp: SphVario, ExpVario, GenExpVario"]}
{"id": "C09", "title": "Default padding removes wrap-around for the spherical variogram", "statement": "With default padding and a spherical variogram the lag between any two cells of the returned grid, measured around the padded grid the other way, is beyond the range. So whenever the spectrum is not clipped the covariance of two returned cells is exactly v.corr of their physical lag. The code violates this for a one-dimensional grid with a rotated variogram and for a three-dimensional grid with a dipping one (refuted with witnesses); it holds without rotation out of the grid, and then for one-dimensional simulate unconditionally.", "quantifier": "all positive ranges and steps, all grid sizes, every pair of returned cells", "why_tests_cant": "aliasing appears only for particular size/range/step combinations and is small in magnitude", "anchors": ["src/nrlib/variogram/gaussianfield.cpp: FindGaussianFieldPadding, FindNDimPadding", "src/nrlib/variogram/fftcovgrid.cpp"]}
{"id": "C10", "title": "Reproducibility from a seed", "statement": "After seed(s), the results of any sequence of simulate / advanced.simulate / seed() calls are a function of s and the calls only: nothing that happened in the process before seed(s) (earlier draws, earlier seeds, no seed at all) can change them.", "quantifier": "all seeds, all prior histories, all subsequent call sequences", "why_tests_cant": "needs every word of the generator state to be overwritten for every history; tests use one history", "anchors": ["src/nrlib/random/random.cpp: Initialize, InitializeMT", "src/nrlib/random/dSFMT.cpp: dsfmt_chk_init_gen_rand", "src/gaussfft.cpp: SimulateWithAdvancedSettings"]}
{"id": "C100", "title": "Spline interpolation in one dimension", "statement": "Spline interpolation returns the values of the natural cubic spline through the points: the only function with two continuous derivatives, cubic between points, with no second derivative at the ends; no smooth curve through the points has less squared second derivative. Points are honoured. If an extrapolation value is given, it is returned exactly for places before the first point and after the last; otherwise the end cubics go on. Other methods throw.", "quantifier": "for all lists of three or more points with increasing places, and all lists of places", "why_tests_cant": "Continuity of derivatives and minimality are statements on all of a curve and all other curves; the elimination could divide by zero for some spacing.", "anchors": ["src/nrlib/geometry/interpolation.cpp:24-64", "src/nrlib/geometry/interpolation.cpp:103-178", "src/nrlib/geometry/interpolation.cpp:181-198"]}
{"id": "C101", "title": "The normal distribution", "statement": "Normal(mean, std_dev) with a positive standard deviation: Pdf is the density of the normal law, Cdf its distribution function, Quantile(p) for p strictly between 0 and 1 the number at which the distribution function is p. Draws are independent and every event has its probability under the normal law up to a relative error of 2e-8, with both generators. SetParameters makes the object like a new one, and Quantile01 is the quantile of the standard law.", "quantifier": "for all means, positive standard deviations, arguments and all infinite sequences of draws", "why_tests_cant": "A law is a statement on all events and infinitely many draws; density and distribution function must agree everywhere.", "anchors": ["src/nrlib/random/normal.hpp:30-125", "src/nrlib/random/normal.cpp:30-45"]}
{"id": "C102", "title": "Potentials of the normal distribution", "statement": "Potential(x) is minus the logarithm of Pdf(x). PotentialLowerTruncated(x, min), PotentialZeroTruncated(x) and PotentialTwoSidedTruncated(x, min, max) are minus the logarithm of the density of a normal number that is known to be greater than min, greater than 0, and between min and max.", "quantifier": "for all means, positive standard deviations, limits and arguments within the limits", "why_tests_cant": "That the densities integrate to one is a statement on all arguments at once.", "anchors": ["src/nrlib/random/normal.hpp:126-174"]}
{"id": "C103", "title": "The inverse of the distribution function by search", "statement": "PhiInverse(y) of a normal distribution returns the number at which the distribution function is y, with an error of at most 1e-10; y = 1/2 gives the mean. For 0 and 1 the result is infinite, and outside [0, 1] it throws.", "quantifier": "for all means, standard deviations from 1e-8 to 1e100, and all y", "why_tests_cant": "Newton's method with bisection must end within its 1000 rounds for every y; the shape of the distribution function over all brackets decides.", "anchors": ["src/nrlib/random/normal.cpp:47-181"]}
{"id": "C104", "title": "Draws from truncated normal distributions", "statement": "DrawLowerTruncated(a) returns a number not less than a, DrawUpperTruncated(b) one not greater than b, DrawTwoSidedTruncated(a, b) one in [a, b], whatever the generator yields, and always returns. They throw if and only if a is greater than b, or the standard deviation is at most 1e-6 and the mean outside the limits. Draws have the law of a normal number that is known to lie within the limits.", "quantifier": "for all means, standard deviations, limits and states of both generators", "why_tests_cant": "The loops of acceptance and rejection depend on up to 100000 random numbers, and the way out after them on an inequality for the tail of the normal law.", "anchors": ["src/nrlib/random/normal.cpp:184-395"]}
{"id": "C105", "title": "The lognormal distribution", "statement": "LogNormal(mu, sigma) with a positive sigma: Pdf and Cdf for positive arguments and Quantile for p strictly between 0 and 1 are the density, the distribution function and its inverse of the law of exp(z), z normal with mean mu and standard deviation sigma; draws are independent and of that law up to a relative error of 2e-8. SetParameters makes the object like a new one; LogNormal() is LogNormal(0, 1).", "quantifier": "for all parameters, arguments and all infinite sequences of draws", "why_tests_cant": "A law is a statement on all events and infinitely many draws; changing the parameters of an object must change all its functions.", "anchors": ["src/nrlib/random/lognormal.hpp:36-97", "src/nrlib/random/lognormal.cpp:31-47"]}
{"id": "C106", "title": "The beta distribution", "statement": "Beta(min_val, max_val, a, b, nx) describes the beta law on [min_val, max_val] in nx cells of the same width, with probabilities proportional to the density at the centres of the cells and uniform within a cell: Cdf is its distribution function, Pdf its density, Quantile the inverse of Cdf, and draws are independent with this law. As nx grows, the law tends to the beta law.", "quantifier": "for all min_val < max_val, all a and b (positive ones for the limit), all nx from 1 to 2^31 - 1, all arguments and all infinite sequences of draws", "why_tests_cant": "The tables are right for all parameters only if the sums and the search are; the limit needs all nx, and laws are statements on all events.", "anchors": ["src/nrlib/random/beta.hpp:45-140", "src/nrlib/random/beta.cpp:29-135"]}
{"id": "C107", "title": "The beta distribution with mass at the ends", "statement": "BetaWithEndMass(min_val, max_val, p_min, p_max, a, b, nx) describes the law of a number that is min_val with probability p_min, max_val with probability p_max, and otherwise from the beta law in nx cells: Cdf is its distribution function, Quantile its inverse, Pdf the density between the ends, and draws are independent with this law. The masses must not exceed 1 together.", "quantifier": "for all min_val < max_val, masses, a, b, nx from 1 to 2^31 - 1, all arguments and all infinite sequences of draws", "why_tests_cant": "The mass of the ends and the law between them are statements on all events; frequencies in a sample only approximate them.", "anchors": ["src/nrlib/random/betawithendmass.hpp:34-122", "src/nrlib/random/betawithendmass.cpp:30-43"]}
{"id": "C108", "title": "Measuring the time of simulations", "statement": "generate(vtype) of ResourceExtrapolator(nmin, nmax, nstep, ndims) simulates one field for each size from nmin to nmax in steps of nstep and returns the sizes with the times; extrapolate(ex_nmax, vtype) returns the numbers of cells, the times, and the one slope that minimises the sum of the squared misfits of time against number of cells; a proportional relation is recovered. For sizes from 2 on neither raises an exception nor has undefined behaviour, and in one or two dimensions the stream of the module advances by one number per size.", "quantifier": "for all nmin, nmax, nstep, ndims, all ASCII type names, all states that a process can reach, all behaviours of the clock and of the environment", "why_tests_cant": "That no size and no state of the generator makes a call fail, and that the slope is the only minimiser, are statements on infinitely many runs and slopes.", "anchors": ["gaussianfft/util/resource_extrapolator.py:7-47"]}
{"id": "C109", "title": "Projections on lines, rays and segments", "statement": "Line::FindProjection returns the one point of the line, ray or segment that is nearest to a given point, FindDistance the least distance, IsPointOnLine whether a point of the line is nearer than a limit, FindParameter the parameter of a point of the line. IsParallel says whether two lines are parallel, FindDistanceAndSide on which side of the line a point is, and IsOverLapping whether parallel lines have common points.", "quantifier": "for all lines, rays and segments, also of length zero, all points and limits", "why_tests_cant": "That no point of the line is nearer is a statement on infinitely many points.", "anchors": ["src/nrlib/geometry/line.cpp:89-151", "src/nrlib/geometry/line.cpp:234-250", "src/nrlib/geometry/point.hpp:218-251"]}
{"id": "C11", "title": "seed() reports the seed in force", "statement": "seed() returns the value given by the last seed(s); simulations in between never change it; before any seed(s) or simulate call in the process it raises.", "quantifier": "all call histories", "why_tests_cant": "a statement about every history of calls", "anchors": ["src/nrlib/random/random.cpp: GetStartSeed, Initialize", "src/gaussfftinterface.cpp: seed"]}
{"id": "C110", "title": "The distance of two lines", "statement": "Line::FindDistance(line, point, point) returns the least distance of a point of one line, ray or segment to a point of another, and two points at that distance.", "quantifier": "for all pairs of lines, rays and segments", "why_tests_cant": "The least of infinitely many distances, in nine combinations of ends, with clamping in two stages.", "anchors": ["src/nrlib/geometry/line.cpp:156-231"]}
{"id": "C111", "title": "Crossing lines seen from above", "statement": "Line::IntersectXY returns true and the common point of two lines seen from above if they have one, and false otherwise.", "quantifier": "for all pairs of lines, rays and segments", "why_tests_cant": "A statement on all pairs of real lines.", "anchors": ["src/nrlib/geometry/line.cpp:252-309"]}
{"id": "C112", "title": "Planes", "statement": "Plane(point, normal) and Plane(point, point, point) make the plane with these; FindProjection returns the nearest point of the plane, FindDistance its distance, IsPointOnPlane whether a point of the plane is within a limit, IsOnPositiveSide whether a point is on the side of the normal, FindIntersection(line) the common point with a line, ray or segment that is not parallel, FindIntersection(plane) the line of the common points with another plane that is not parallel.", "quantifier": "for all planes, lines and points", "why_tests_cant": "Statements on all points of a plane and of a line.", "anchors": ["src/nrlib/geometry/plane.cpp:37-168"]}
{"id": "C113", "title": "Triangles", "statement": "Triangle::FindIntersection returns true and the common point of the triangle and a line, ray or segment that is not parallel to it if they have one, and false otherwise; points of the edges count if asked for. FindNearestPoint returns the least distance of a point of the triangle to a point of the line, and the point of the triangle.", "quantifier": "for all triangles, also without area, and all lines, rays and segments", "why_tests_cant": "The least of infinitely many distances.", "anchors": ["src/nrlib/geometry/triangle.cpp:38-140"]}
{"id": "C114", "title": "Boxes", "statement": "Box::IsInside tells whether a point is in a box that may be turned around the vertical axis; FindDistance returns the least distance of a point outside to a point of the box, and of a point inside to a point of the surface; GetCorner returns the corners; FindIntersections returns the points, no more than two, where a line, ray or segment crosses the surface.", "quantifier": "for all boxes with sides that are not negative, all angles, points, lines, rays and segments", "why_tests_cant": "The least of infinitely many distances, at all angles.", "anchors": ["src/nrlib/geometry/box.cpp:41-290", "src/nrlib/geometry/box.hpp:49-53"]}
{"id": "C115", "title": "Transformations", "statement": "A Transformation on which translations, stretches, rotations, shears and mirrors were called moves a point by these operations in the order of the calls. Translations, rotations and mirrors keep all distances. The opposite calls in the opposite order bring each point back.", "quantifier": "for all sequences of calls of any length, all arguments and all points", "why_tests_cant": "Sequences of calls are of any length, with real arguments.", "anchors": ["src/nrlib/geometry/transformation.cpp:29-248"]}
{"id": "C116", "title": "Points inside a polygon", "statement": "Polygon::IsInsidePolygonXY gives the same answer for all points that can be connected without touching an edge, different answers on the two sides of an edge, and false for all points that can be connected to infinity or are outside the convex hull. For a strictly convex polygon given counterclockwise it is true for points on the left of all edges and false for points on the right of one. It never divides by zero.", "quantifier": "for all polygons, also with crossing edges, repeated or collinear corners and horizontal edges, and all points that are not on an edge", "why_tests_cant": "The ray may meet corners and run along edges; the rule for these must work in all combinations of corners at the height of the point, however many.", "anchors": ["src/nrlib/geometry/polygon.cpp:59-90"]}
{"id": "C117", "title": "Extent, orientation and convexity of polygons", "statement": "Polygon::XYExtent gives the smallest and the largest coordinates; IsCounterclockwise tells whether the corners are given counterclockwise; IsConvex tells whether the polygon is convex; MakeConvex deletes corners until it is.", "quantifier": "for all polygons with a corner at least", "why_tests_cant": "Loops over any number of corners; a loop without a bound.", "anchors": ["src/nrlib/geometry/polygon.cpp:93-180"]}
{"id": "C118", "title": "Lengths along polygons and positions of points", "statement": "Polygon::GetCircumferenceXY gives the length of the polygon seen from above; DistanceBetweenPointsXY gives the length of the shorter way between two corners along the polygon; FindPointPosition gives the number of the first corner equal to a point.", "quantifier": "for all polygons with two corners at least, all numbers of corners and points", "why_tests_cant": "Loops over any number of corners.", "anchors": ["src/nrlib/geometry/polygon.cpp:306-346"]}
{"id": "C119", "title": "Tangents to a polygon", "statement": "Polygon::TangentPointPoly gives the corners touched by the two tangents from a point: seen from the point, all corners are on the left of the first or behind it, and on the right of the second or behind it.", "quantifier": "for all polygons with two corners at least, convex or not, and all points outside the convex hull of the corners, with both results initialised as zero", "why_tests_cant": "The tangents are found from local conditions at each corner; that these find the outermost corner must hold for any number of corners and any sequence of turns.", "anchors": ["src/nrlib/geometry/polygon.cpp:271-304", "src/nrlib/geometry/point.cpp:110-115"]}
{"id": "C12", "title": "An automatically seeded run can be replayed", "statement": "If simulate is called without a seed the library seeds itself (from the clock), seed() afterwards returns a value r without raising, and calling seed(r) and repeating the same calls reproduces the same results bit for bit.", "quantifier": "all clock values, all call sequences following the first simulate", "why_tests_cant": "the start seed is drawn from a clock-seeded stream and the stream is re-seeded with it; a test sees one clock value", "anchors": ["src/nrlib/random/random.cpp: Initialize()", "src/gaussfft.cpp: SimulateWithAdvancedSettings lines 121-127"]}
{"id": "C120", "title": "Bilinear surfaces", "statement": "BilinearSurface::GetPoint gives the bilinear combination of the corners, however the surface was defined. FindIntersections gives the points that the line and the surface have in common, in the order of the line. IsAbove tells on which side of the surface a point is.", "quantifier": "for all corners, lines and points", "why_tests_cant": "A quadratic equation with special cases, two formulas for the second parameter, and snapping of small numbers; real parameters.", "anchors": ["src/nrlib/geometry/bilinearsurface.cpp:27-334", "src/nrlib/geometry/point.cpp:87-104"]}
{"id": "C121", "title": "Volumes: the area, its coordinates, inside tests and covering surfaces", "statement": "A Volume stands on a rectangle with a corner, two sides and an angle. IsInside(x, y) tells whether a point is in it, IsInsideTolerance whether it is in the rectangle enlarged by the tolerance; GetXYFromRelative maps the unit square onto it one to one; local and global coordinates are inverse. IsInside(x, y, z) tells whether a point is also strictly between the top and the bottom. A surface passes the check of the setters if and only if it is defined on the whole area.", "quantifier": "for all corners, sides, angles, surfaces and points", "why_tests_cant": "Real angles and coordinates.", "anchors": ["src/nrlib/volume/volume.cpp:469-489", "src/nrlib/volume/volume.cpp:523-601", "src/nrlib/volume/volume.hpp:69-72"]}
{"id": "C122", "title": "Volumes: height, extremes, setters and copies", "statement": "The height of a volume is its greatest thickness; GetZMin, GetTopZMax, GetBotZMin and GetZMax are the extremes of its surfaces. SetDimensions, SetAngle and SetSurfaces return if and only if all surfaces cover the new volume, with the height of the new volume, and otherwise leave the volume as it was. A copy behaves like the original. FindCenter is the centre.", "quantifier": "for all volumes, surfaces with any heights and missing values, numbers of cells and arguments", "why_tests_cant": "Surfaces are arbitrary functions; the statements are about all their values, and about arguments that refer to the volume itself.", "anchors": ["src/nrlib/volume/volume.cpp:51-334", "src/nrlib/volume/volume.cpp:492-557"]}
{"id": "C123", "title": "Conditional normal distributions", "statement": "CondDistrMultiNormal returns, for all values of the observations, the expectation and the covariances of the conditional law of the unknown given the observations, for every normal vector with the given expectations, standard deviations and correlations: the unknown less this expectation is independent of the observations, normal with expectation zero and these covariances. At an observed place the expectation is the observation and the variance zero. If the covariance matrix of the observations is not positive definite, as with two observations at one place, the function throws; without observations it returns what it was given. Posterior1DNormal is the same for one observation and one unknown.", "quantifier": "for all numbers of observations and unknowns, places, expectations, standard deviations, variograms, values and probability spaces", "why_tests_cant": "A statement about laws and independence on arbitrary probability spaces, for all sizes.", "anchors": ["src/nrlib/statistics/posteriormultinormal.cpp:36-104", "src/nrlib/statistics/posteriormultinormal.cpp:204-225", "src/nrlib/statistics/posteriormultinormal.cpp:300-313"]}
{"id": "C124", "title": "Secondary observations, and observations that are nearly the same", "statement": "IdentifyLargeCorr puts every observation in one chain; every member but the first is nearly the same as a lower member before it, and the observations that are kept, the first of every chain, are pairwise not nearly the same. SecondayCondDistrMultiNormal2D returns the conditional law of the unknown given the observations that are kept, where a secondary observation has its local correlation with the unknown.", "quantifier": "for all numbers of observations and unknowns, places, local correlations, variograms and values", "why_tests_cant": "The chains are closures of a relation, for all relations that correlations may give.", "anchors": ["src/nrlib/statistics/posteriormultinormal.cpp:109-201", "src/nrlib/statistics/posteriormultinormal.cpp:227-296"]}
{"id": "C125", "title": "Cholesky factors", "statement": "CholeskyFactorize leaves, in the upper triangle of a positive definite matrix, the upper triangular factor with a positive diagonal whose transpose times itself is the matrix, and throws for every other matrix. CholeskyDeFactorize gives back the matrix that was factorized. Every upper triangle with a positive diagonal is found again from the matrix that CholeskyDeFactorize makes of it.", "quantifier": "for all sizes and symmetric matrices", "why_tests_cant": "Existence and uniqueness of a factorization for matrices of all sizes.", "anchors": ["src/nrlib/flens/nrlib_flens.cpp:156-198"]}
{"id": "C126", "title": "Draws of normal vectors", "statement": "MultiNormal::Draw draws normal vectors with the given expectation and the given covariance matrix, whether these were given to the constructor or to SetParameters.", "quantifier": "for all sizes, expectations, covariance matrices and standard normal numbers on all probability spaces", "why_tests_cant": "A statement about laws, for all sizes and matrices.", "anchors": ["src/nrlib/statistics/multinormal.cpp:28-80", "src/nrlib/statistics/multinormal.hpp:43-62"]}
{"id": "C127", "title": "The potential of a normal vector", "statement": "For a positive definite covariance matrix MultiNormal::Potential is minus the logarithm of the density, with respect to Lebesgue measure, of every normal vector with this expectation and this covariance matrix; it is half the sum of n log(2 pi), the logarithm of the determinant and the quadratic form of the inverse.", "quantifier": "for all sizes, expectations, positive definite matrices, eigenvector matrices that LAPACK may return, points and probability spaces", "why_tests_cant": "An identity of measures for all sizes.", "anchors": ["src/nrlib/statistics/multinormal.cpp:83-120", "src/nrlib/flens/nrlib_flens.cpp:199-208"]}
{"id": "C128", "title": "Sorting eigenvalues, the largest element and the identity matrix", "statement": "Sort3x3 puts the three eigenvalues in descending order and the columns of the matrix in the same order. FindLargestElement returns an element that no other exceeds, and minus infinity for an empty vector. IdentityMatrix has ones on the diagonal and zeros elsewhere.", "quantifier": "for all three eigenvalues and matrices; for all vectors; for all sizes", "why_tests_cant": "All real numbers, with ties; vectors and matrices of all sizes.", "anchors": ["src/nrlib/flens/nrlib_flens.cpp:211-222", "src/nrlib/flens/nrlib_flens.cpp:224-234", "src/nrlib/flens/nrlib_flens.cpp:288-333"]}
{"id": "C129", "title": "Four-dimensional grids, windows of grids, and extremes of grids", "statement": "GetIndex numbers the cells of a Grid4D from 0 without gaps and refuses other indices; a value written to a cell is read from it and changes no other; GetIJKL gives the cell of a number. A Grid2DGeneral from (a,c) to (b,d) holds exactly the cells between these, and GetIJ inverts GetIndex. Swap exchanges two grids. FindMin, FindMax and GetAvgMinMaxWithMissing give the least value, the greatest value and the average of the values that are not missing; FindMin and FindMax give the missing value if there is none.", "quantifier": "for all sizes, bounds, element types (values: all real numbers), cells and missing values", "why_tests_cant": "All sizes; tests have one or two of them, and the fourth index is often 0.", "anchors": ["src/nrlib/grid/grid4d.hpp:89-176", "src/nrlib/grid/grid2dgeneral.hpp:106-225", "src/nrlib/grid/grid2d.hpp:197-223", "src/nrlib/grid/grid.hpp:242-266"]}
{"id": "C13", "title": "One- and two-dimensional simulation uses exactly one number of the global stream", "statement": "A one- or two-dimensional simulate call advances the global random stream by exactly one draw, independent of grid size, variogram, padding and smoothing; so the n-th field after seed(s) does not depend on the sizes of the earlier 1D/2D fields.", "quantifier": "all sequences of 1D/2D calls", "why_tests_cant": "depends on all earlier calls", "anchors": ["src/nrlib/variogram/gaussianfield.cpp: lines 232-236, 318-322", "src/nrlib/random/randomgenerator.cpp"]}
{"id": "C130", "title": "Cells of grids in volumes", "statement": "FindIndex of a StormContGrid with ni x nj x nk cells gives, for each point of the volume, the cell that it lies in: the point s cells along the first side, t cells along the second and r layers below the top is in the cell of the integer parts of s, t and r, whatever the turning of the volume and the shape of its surfaces. FindCenterOfCell gives a point of the cell that FindIndex maps back to it. Points outside the volume are refused with an exception.", "quantifier": "for all volumes with an area, all surfaces with heights, all numbers of cells below 2^31, and all points", "why_tests_cant": "The mapping depends on angle, sizes and surfaces; tests have one volume without turning.", "anchors": ["src/nrlib/stormgrid/stormcontgrid.cpp:284-343", "src/nrlib/stormgrid/stormcontgrid.hpp:93-94"]}
{"id": "C131", "title": "Values between the layers of grids in volumes", "statement": "GetValueZInterpolated gives the value of the first layer above its centre, of the last layer below its centre, and between the centres of two layers the average weighted with the distances, or the one of the two values that is not missing. GetValueInterpolated does the same for a layer number with a fraction. GetValueClosestInZ gives, in all points from the first centre to the last one, the interpolated value too. GetAvgRelThick is the average of the distance of the surfaces as part of the height of the volume.", "quantifier": "for all volumes, surfaces, grids, columns of values and points", "why_tests_cant": "Between two centres there are infinitely many points, and a wrong pair of layers is seen only in some of them.", "anchors": ["src/nrlib/stormgrid/stormcontgrid.cpp:345-505", "src/nrlib/stormgrid/stormcontgrid.cpp:754-784"]}
{"id": "C132", "title": "The logs of wells", "statement": "A log added to a Well is found under its name until it is replaced or removed, and no other log changes; SetContValue and SetDiscValue change one value only; after any sequence of calls GetNContLog and GetNlog are the numbers of the logs; MakeLogsUppercase gives each log its name in upper case; SetMissing sets the codes for missing values; and, as documented, asking for a value of a log that is not there or after its end gives the missing value.", "quantifier": "for all wells that calls can lead to, all names, logs, values and positions", "why_tests_cant": "All sequences of calls; tests add logs and read them once.", "anchors": ["src/nrlib/well/well.cpp:38-290", "src/nrlib/well/well.hpp:30-166"]}
{"id": "C133", "title": "Blocking of wells in grids", "statement": "BlockWell gives a well with one value per cell of the grid that the well passes, in the order in which the cells are first passed. The value of a continuous log is the average of the values in the cell that are not missing. The value of a discrete log is a value that the log has in the cell. A cell without values is missing in the blocked well.", "quantifier": "for all wells with logs of one length, all grids (functions from points to cells), and all codes for missing values", "why_tests_cant": "Cells can be left and passed again, and values be missing, in any pattern.", "anchors": ["src/nrlib/well/welloperations.hpp:46-166"]}
{"id": "C134", "title": "The logarithm of the gamma function, and binomial coefficients", "statement": "gammln(x) is the logarithm of the gamma function of x with an error of at most 3e-12 for every x > 0, and refuses other arguments. bico(n, k) is exactly the number of ways to choose k out of n for 0 <= k <= n, as long as that is at most 10^10 (so for all n to 36), and refuses other arguments.", "quantifier": "for all real x > 0, without an upper bound, and all n and k", "why_tests_cant": "The bound is one for a whole half-line; a table of values says nothing about the points between.", "anchors": ["src/nrlib/random/gamma.cpp:55-83", "src/nrlib/random/gamma.cpp:259-271"]}
{"id": "C135", "title": "The incomplete gamma function", "statement": "For a > 0 and x >= 0, gammp(a, x) is the integral of t^(a-1) exp(-t) from 0 to x, divided by the gamma function of a, with an error of at most 3e-9; if x < a + 1 the error is at most 1e-11 of the value, otherwise 3e-9 of the probability above x. It is 0 at x = 0 and refuses other arguments.", "quantifier": "for all real a > 0 and x >= 0", "why_tests_cant": "Every pair of real numbers; the series and the continued fraction stop after a number of rounds that depends on them.", "anchors": ["src/nrlib/random/gamma.cpp:84-199"]}
{"id": "C136", "title": "The chi-squared distribution", "statement": "A ChiSquared with k > 0 degrees of freedom has the density x^(k/2-1) exp(-x/2) / (2^(k/2) Gamma(k/2)): Pdf(x) is the density with a relative error of at most 1e-11 (k to 1000), Cdf(x) is its integral with an error of at most 3e-9 (k < 200), both are 0 for negative x. Quantile is the inverse of Cdf and not negative. Other degrees of freedom are refused.", "quantifier": "for all degrees of freedom k > 0, all x and all probabilities", "why_tests_cant": "Every pair of real numbers.", "anchors": ["src/nrlib/random/chisquared.hpp:34-78", "src/nrlib/random/chisquared.cpp:27-34", "src/nrlib/random/gamma.cpp:201-256"]}
{"id": "C137", "title": "Wavelets: Ricker, resampling and resizing", "statement": "A Ricker wavelet has at each sample the value of factor (1 - 2 (pi f t)^2) exp(-(pi f t)^2) at the time t of the sample, is symmetric about its middle and nowhere higher than there. Resample to a multiple of the interval keeps exactly the samples whose times are multiples of the new interval, at their times. Resize keeps the samples at their times as far as there is room, and the others are zero.", "quantifier": "for all peak frequencies, lengths, intervals, factors, wavelets and multiples", "why_tests_cant": "Every length and every interval; whether a quotient of doubles is a whole number depends on rounding.", "anchors": ["src/nrlib/wavelet/wavelet.cpp:47-179", "src/nrlib/wavelet/wavelet.hpp:60-100"]}
{"id": "C138", "title": "The faces of a fault, and where fault segments cross", "statement": "Going through a fault with an EclipseFault iterator gives the faces of all cells of its segments, segment after segment, each cell of a segment once, the first cell number changing fastest. SegmentsCross is true for two upright segments if and only if they are not parallel and their lines on the map meet, and then gives the point where they meet. IncreaseSegmentLength moves both ends of the line outwards by the given number of cells. The opposite of a face is the other face in the same direction.", "quantifier": "for all faults, of any number of segments of any size, and all pairs of upright segments", "why_tests_cant": "There are as many faults as lists of boxes.", "anchors": ["src/nrlib/eclipsegrid/eclipsefaceindexer.cpp:30-84", "src/nrlib/eclipsegrid/eclipsefault.cpp:42-48", "src/nrlib/eclipsegrid/eclipsefault.cpp:122-248", "src/nrlib/eclipsegrid/eclipsetools.hpp:33-96"]}
{"id": "C139", "title": "Files of faults", "statement": "Faults that are written with WriteFaults and read with ReadFaults are the same as before: the same names, and for each the same segments in the same order. A file that is not well formed is refused.", "quantifier": "for all sets of faults with names without white space and cell numbers of at most seven digits", "why_tests_cant": "Every number of faults, segments and digits in any combination.", "anchors": ["src/nrlib/eclipsegrid/eclipsegrid.cpp:148-177", "src/nrlib/eclipsegrid/eclipsegrid.cpp:564-580", "src/nrlib/eclipsegrid/eclipsefault.cpp:51-120"]}
{"id": "C14", "title": "Different seeds give different streams", "statement": "Seeds are 64-bit values and seed() echoes all 64 bits. Claimed: different seeds start different streams. The code keeps only the low 32 bits, so seeds that agree modulo 2^32 give identical results (refuted as stated); seeds that differ modulo 2^32 start streams of uniform numbers that differ infinitely often: among any 387 consecutive draws at least one differs.", "quantifier": "all pairs of seeds", "why_tests_cant": "2^64 seeds", "anchors": ["src/nrlib/random/random.cpp: InitializeMT lines 162-165", "src/nrlib/random/dSFMT.cpp: dsfmt_chk_init_gen_rand"]}
{"id": "C140", "title": "Cells, lines and points of a seismic cube", "statement": "In a cube whose lines are numbered along its axes, IsInside is true of a point if and only if it is in a cell, FindContIndex gives its place among the cells, FindIndex gives the cell of a point inside and refuses points outside. FindILXL of a cell gives the lines through its middle, FindIndex of these lines gives the cell back and refuses lines that are not in the cube. The point of two lines is the point that they pass through, and the point of a cell is its middle.", "quantifier": "for all cubes with any origin, rotation, sizes of cells, numbers of cells, first lines, steps and directions of numbering, and all points, lines and cells", "why_tests_cant": "The members of a cube are seventeen numbers; the four combinations of axes and directions each have their own formulas.", "anchors": ["src/nrlib/segy/segygeometry.cpp:890-1088"]}
{"id": "C141", "title": "How a seismic cube is set up", "statement": "The cube made from an origin, a rotation, cells and lines has these cells and these lines, and its first, last and step of lines fit them. The cube made from a grid has the cells of the grid.", "quantifier": "for all grids and all lines numbered along the axes", "why_tests_cant": "Every rotation, size and numbering; the direction of numbering and the axis of the in-lines are found from rounded numbers.", "anchors": ["src/nrlib/segy/segygeometry.cpp:750-856", "src/nrlib/segy/segygeometry.cpp:1002-1007", "src/nrlib/segy/segygeometry.cpp:1170-1243"]}
{"id": "C142", "title": "Parts of a seismic cube", "statement": "The part of a cube between given lines, in steps that are multiples of the steps of the cube, is a cube whose lines are lines of the cube and pass through the same points. Its ends are those asked for, moved by less than a step to the next line that is there. The lines for the area of another cube cover this area as far as the cube does, with less than a step to spare.", "quantifier": "for all cubes, all ranges and steps, and all areas with any rotation", "why_tests_cant": "Every combination of ranges, remainders and directions.", "anchors": ["src/nrlib/segy/segygeometry.cpp:1245-1497"]}
{"id": "C143", "title": "The frame of a seismic cube from its lines", "statement": "From a reference point, the first, last and step of the lines, and the steps in space from line to line, the cube has one cell for every crossing of lines, its first, last and step of lines are those given, its rotation is at most an eighth of a turn, and the lines at every point of the plane are right. Every crossing is the middle of a cell. A single trace is the middle of a single cell with its lines.", "quantifier": "for all reference points, perpendicular steps in space of any length and direction, ranges and steps of lines", "why_tests_cant": "The corner, the axis of the in-lines and the sense of numbering depend on the quarter of the turn and the ratio of the steps; each case has its own branch.", "anchors": ["src/nrlib/segy/segygeometry.cpp:503-744", "src/nrlib/segy/segygeometry.cpp:1122-1167"]}
{"id": "C144", "title": "A seismic cube from its traces", "statement": "From traces on a full rectangle of perpendicular lines, in any order, with null pointers and repeated traces among them, the constructor makes the cube with one cell for every crossing of lines, and returns the traces in the order of the cells: at the place of every cell there is a trace with the lines of the cell that lies in its middle.", "quantifier": "for all lists of traces of any length, all ranges and steps of lines, and all directions", "why_tests_cant": "The steps in space are found from two traces that are chosen by their distances from the first one; every order of the traces is a different case.", "anchors": ["src/nrlib/segy/segygeometry.cpp:48-350"]}
{"id": "C145", "title": "Cells, corners and pillars of a corner-point grid", "statement": "The numbering of cells and its inverse undo each other. Every place of the vector of depths belongs to one corner of one cell; a depth that is set is got back, and all others are kept. Setting the pillars from the numbers of a file gives these pillars. Every corner point has the depth of the corner and lies on its pillar.", "quantifier": "for all sizes of grids, cells, corners, depths and pillars", "why_tests_cant": "A wrong factor in an index formula shares places only for some sizes and corners, and cubic grids hide exchanged sizes.", "anchors": ["src/nrlib/eclipsegrid/eclipsegeometry.hpp:323-410", "src/nrlib/eclipsegrid/eclipsegeometry.cpp:132-139", "src/nrlib/eclipsegrid/eclipsegeometry.cpp:544-568", "src/nrlib/eclipsegrid/eclipsegeometry.cpp:972-987"]}
{"id": "C146", "title": "Points inside the cells of a corner-point grid", "statement": "The point at local coordinates (u, v, w) of a cell is between the top and the bottom of the cell at (u, v), which have the bilinear depth of their four corners and lie bilinearly between the four pillars at this depth. In a box it is the point at the shares u, v and w of the sides.", "quantifier": "for all grids, cells and local coordinates", "why_tests_cant": "On the sides and in the corners of a cell the result is right; it is wrong only inside.", "anchors": ["src/nrlib/eclipsegrid/eclipsegeometry.cpp:796-847"]}
{"id": "C147", "title": "Active cells, layers and pillars of a corner-point grid", "statement": "The top and bottom cells of a column, and the top and bottom layers of the grid, are the first and last ones that are active. The active pillars are those at the corners of active cells. A point on a pillar inside the grid has the depth asked for, moved to between the smallest top and the greatest bottom at the pillar. The mean distance of the pillars is over all neighbouring pairs of active pillars, each taken once.", "quantifier": "for all grids, sets of active cells, pillars and depths", "why_tests_cant": "The edges of the grid and inactive columns have branches of their own; pairs at the edges are added in separate loops.", "anchors": ["src/nrlib/eclipsegrid/eclipsegeometry.cpp:590-646", "src/nrlib/eclipsegrid/eclipsegeometry.cpp:571-587", "src/nrlib/eclipsegrid/eclipsegeometry.cpp:701-793", "src/nrlib/eclipsegrid/eclipsegeometry.cpp:1000-1013", "src/nrlib/eclipsegrid/eclipsegeometry.cpp:1089-1113", "src/nrlib/eclipsegrid/eclipsegeometry.cpp:1145-1172", "src/nrlib/eclipsegrid/eclipsegeometry.hpp:106-107"]}
{"id": "C148", "title": "The cell of a point in a corner-point grid", "statement": "In a convex column the local coordinates of the point at (u, v) are (u, v). Among layers that do not overlap, the search finds the layer that holds the depth, and none if there is none. In a grid of boxes the cell found for a point is the one that holds it.", "quantifier": "for all quadrilaterals turned in either sense, local coordinates, columns of any number of layers, and depths", "why_tests_cant": "The quadratic equation has two roots and degenerates with parallel sides; the search halves an interval whose ends have special cases.", "anchors": ["src/nrlib/eclipsegrid/eclipsegeometry.cpp:156-211", "src/nrlib/eclipsegrid/eclipsegeometry.cpp:463-541", "src/nrlib/eclipsegrid/eclipsegeometry.cpp:849-924"]}
{"id": "C149", "title": "Searching and sorting of trend data", "statement": "A vector that is not empty is reported as sorted exactly if it is. The lower bound in a sorted vector is the last place with an element not above the number, or the first place; the upper bound is the first place with an element not below the number, or an end. All elements between two numbers are between the two places. Sorting returns the sorted numbers, a permutation of places that leads to them and keeps the order of equal ones, and ranks that are its inverse.", "quantifier": "for all vectors and numbers", "why_tests_cant": "The searches halve an interval; their answers at ends and between equal elements are easily off by one.", "anchors": ["src/nrlib/trend/trendkit.cpp:1007-1017", "src/nrlib/trend/trendkit.cpp:1369-1461"]}
{"id": "C15", "title": "simulate is advanced.simulate with default settings", "statement": "simulate(v,...) and advanced.simulate(v,...) with padx=pady=padz=-1 and sx=sy=sz=1 have the same result and the same effect on the generator; any smoothing values above 0.99999 and any negative paddings also give the same result.", "quantifier": "all arguments and generator states", "why_tests_cant": "for all inputs", "anchors": ["src/gaussfft.cpp: Simulate, SimulateWithAdvancedSettings"]}
{"id": "C150", "title": "Interpolation between the numbers of a trend", "statement": "On a regular grid a place gets the number of the straight line through its neighbours, in two dimensions of the bilinear surface, which lies between the least and the greatest number; it is missing outside the grid or beside a missing number. Resampling gives every new place in the range of the trend the number of the line through its neighbours.", "quantifier": "for all regular grids, numbers and places, and all increasing places and sorted new places", "why_tests_cant": "The index of the cell comes from a floor, and the ends have special cases; resampling walks two sorted lists together.", "anchors": ["src/nrlib/trend/trendkit.cpp:210-255", "src/nrlib/trend/trendkit.cpp:622-653", "src/nrlib/trend/trendkit.cpp:1477-1543"]}
{"id": "C151", "title": "Means, variances and bins of trend data", "statement": "The constant trend is the mean of all numbers of the logs that are not missing. The variance is the sum of squared distances from the mean divided by one less than the number. The weight of a bin is the sum of the parts of the observations in it, which fall linearly to the next bins, and its number the mean with these weights.", "quantifier": "for all logs, vectors, regular grids and observations", "why_tests_cant": "Needs logs of different lengths, tens of thousands of numbers, or observations close to the ends of the grid.", "anchors": ["src/nrlib/trend/trendkit.cpp:10-37", "src/nrlib/trend/trendkit.cpp:443-521", "src/nrlib/trend/trendkit.cpp:1062-1079"]}
{"id": "C152", "title": "Local linear regression", "statement": "Each estimate is the value of the line that fits the observations near the place best with the weights of the kernel. Equal observations are reproduced, and so are observations on a line, wherever it is. The order of the observations is without effect.", "quantifier": "for all observations, weights that are not negative, bandwidths and places", "why_tests_cant": "The bias grows with the distance from the origin, and the window is narrower than the limit used inside of it; examples around the origin without equal places show neither.", "anchors": ["src/nrlib/trend/trendkit.cpp:523-620"]}
{"id": "C153", "title": "Values of trends", "statement": "The value of a trend in one, two or three dimensions is found on straight lines between its numbers, one direction after the other, is constant outside, equals the number at each node, and is between the least and the greatest number.", "quantifier": "for all trends, sizes, increments and places", "why_tests_cant": "Inside and outside in each direction give nine cases in two dimensions; an exchange of weights shows only between layers.", "anchors": ["src/nrlib/trend/trend.cpp:20-68", "src/nrlib/trend/trend.cpp:253-279", "src/nrlib/trend/trend.cpp:516-583", "src/nrlib/trend/trend.cpp:771-837"]}
{"id": "C154", "title": "Limits, means, scaling and signs of trends", "statement": "The least and the greatest value are those of the numbers. Truncation moves each number to the nearest between the limits. The mean is the sum of the numbers divided by how many they are, and is the one asked for after scaling. The check for negative numbers fails exactly if there is one.", "quantifier": "for all trends", "why_tests_cant": "A loop that begins at the second number differs only by the first number.", "anchors": ["src/nrlib/trend/trend.cpp:91-97", "src/nrlib/trend/trend.cpp:218-236", "src/nrlib/trend/trend.cpp:332-384", "src/nrlib/trend/trend.cpp:472-492", "src/nrlib/trend/trend.cpp:640-699", "src/nrlib/trend/trend.cpp:746-769", "src/nrlib/trend/trend.cpp:869-939"]}
{"id": "C155", "title": "Samples of traces", "statement": "A trace made of numbers for an interval of samples gives back each of them and the missing value elsewhere; the legal index is the closest sample; all values are the samples of all traces in order; the longest trace is found; a copy of a trace equals it.", "quantifier": "for all traces, intervals and tables of traces", "why_tests_cant": "Intervals that do not begin at zero, traces without samples and copies of traces without a header are rare in tests.", "anchors": ["src/nrlib/segy/segytrace.cpp:126-148", "src/nrlib/segy/segytrace.cpp:150-213", "src/nrlib/segy/segy.cpp:946-983"]}
{"id": "C156", "title": "Values between the samples of a cube", "statement": "The value of a cube at a point is interpolated from the closest sample and its neighbours: at the centre it is the sample, linear samples are interpolated exactly, and so are sums of quadratic functions away from the sides. Outside, it is missing or zero as asked for.", "quantifier": "for all cubes, points and samples", "why_tests_cant": "The neighbours are found by the place in the table, which is wrong only in the first and the last column.", "anchors": ["src/nrlib/segy/segy.cpp:1037-1190"]}
{"id": "C157", "title": "The table of traces after writing", "statement": "After all traces are written in the order of the lines, the table of traces is as it was, with each trace at its place. The two orders used are strict weak orders.", "quantifier": "for all tables with any empty places, and for every result of an unstable sort", "why_tests_cant": "Traces are moved between places of one table; a move onto a trace not moved yet, or an early end, needs certain empty places.", "anchors": ["src/nrlib/segy/segy.cpp:1388-1465"]}
{"id": "C158", "title": "Samples stored and read between surfaces", "statement": "A stored trace has the top value above the surface, the data from the sample of the surface on, and the base value below. Of a trace read between two surfaces, the samples with their cell between the surfaces are read; without any there is an error.", "quantifier": "for all surfaces, samples and data", "why_tests_cant": "Surfaces outside of the cube and data that reach beyond its base are rare in tests, and writing beyond a vector may go unnoticed.", "anchors": ["src/nrlib/segy/segy.cpp:534-553", "src/nrlib/segy/segy.cpp:1222-1276"]}
{"id": "C159", "title": "Headers of traces", "statement": "A header of a trace that is written is read back: the counts, the scale coefficient, the lines and the start exactly, and a coordinate to within the scale; bytes of no field are as they were. The named formats have fields that share no byte. A format that passes the check has fields that share no byte.", "quantifier": "for all formats, headers, coefficients and coordinates", "why_tests_cant": "Fields at places a user gives may share bytes, and a header may have been given another coefficient before; few files have either.", "anchors": ["src/nrlib/segy/traceheader.cpp:148-228", "src/nrlib/segy/traceheader.cpp:291-340", "src/nrlib/segy/traceheader.cpp:428-535", "src/nrlib/segy/traceheader.cpp:570-602", "src/nrlib/segy/traceheader.cpp:699-720"]}
{"id": "C16", "title": "Explicit padding is honoured", "statement": "advanced.simulate with padx,pady,padz>=0 simulates on a periodic grid with at least nx+padx, ny+pady, nz+padz cells and never more than needed to reach a product of 2,3,5,7 (even in x in 2D/3D), independent of the variogram's ranges.", "quantifier": "all sizes and paddings", "why_tests_cant": "the rounding depends on number theory of the size", "anchors": ["src/nrlib/variogram/gaussianfield.cpp", "src/nrlib/fft/fftgrid2d.hpp: FFTGrid2D ctor", "src/nrlib/fft/fftgrid3d.hpp: FFTGrid3D ctor", "src/nrlib/fft/fft.cpp: FindNewSizeWithPadding"]}
{"id": "C160", "title": "Headers of files of traces", "statement": "A line set in the text of a file of traces has the EBCDIC codes of the text in its columns 6 to 80 and spaces after it; no other byte changes. Each line of the text has 80 bytes and begins with the letter C. The binary part that is written gives, when read, the format, the number of samples and the step.", "quantifier": "for all texts, lines, numbers of samples and steps", "why_tests_cant": "Characters at the border of a table, long traces and long steps are rare in tests, and other programs read the text, not this one.", "anchors": ["src/nrlib/segy/commonheaders.cpp:28-58", "src/nrlib/segy/commonheaders.cpp:60-104", "src/nrlib/segy/commonheaders.cpp:165-195", "src/nrlib/segy/commonheaders.cpp:209-242"]}
{"id": "C161", "title": "The log", "statement": "A message is written to exactly the streams whose levels for its phase include its level, with the prefix of its level, in order, and is counted. A message without a phase goes to the streams that would have it in some phase. A stream added after messages, with buffering since before them, has the same messages as one added before. The stream of the screen can be replaced without effect on others.", "quantifier": "for all sets of levels, phases, streams and sequences of messages", "why_tests_cant": "The number of the screen among the streams must follow every removal, and buffers must keep the order; tests use one or two streams.", "anchors": ["src/nrlib/iotools/logkit.cpp:31-248", "src/nrlib/iotools/logstream.cpp:31-61", "src/nrlib/iotools/logkit.hpp:33-130"]}
{"id": "C162", "title": "The control of trace headers", "statement": "From three traces of a regular grid that are not on one line, the control of a header format finds the steps of the grid for inlines and crosslines, and accepts a fourth trace exactly when both of its coordinates are within 5 of its place in the grid. A header with a negative number or without a coordinate is refused.", "quantifier": "for all grids and traces", "why_tests_cant": "Tests read files whose traces follow the inlines, where a wrong sign in the solution has no effect.", "anchors": ["src/nrlib/segy/segy.cpp:1853-1856", "src/nrlib/segy/segy.cpp:1886-1927", "src/nrlib/segy/traceheader.cpp:724-730"]}
{"id": "C163", "title": "Numbers of inlines and crosslines that do not match", "statement": "When the inlines and the crosslines are regular, every trace keeps its numbers. The step taken as correct is one that occurs most often. Only traces with numbers next to another step are set undefined; of three or more regular inlines and one number beyond them, exactly the traces with this number are. Numbers that match the step are kept.", "quantifier": "for all lists of traces, in any order", "why_tests_cant": "A survey with a missing line is needed to see that its neighbours are lost, and the result is a silent loss of traces.", "anchors": ["src/nrlib/segy/segy.cpp:1611-1743"]}
{"id": "C164", "title": "The comparison of two traces", "statement": "Two traces with the same line numbers or the same place are refused. Two traces of one inline, or of one crossline, are accepted exactly when their distance for each line is more than 3.125, less than 53.125 and within 1 of a multiple of 6.25. Other pairs are accepted only if their distance is that of a right-angled grid with steps of whole units, the unit within the same limits. Every comparison has a result, and it does not depend on the order of the two traces.", "quantifier": "for all pairs of traces", "why_tests_cant": "The first two traces of files in tests are neighbours on a line, so that the search over pairs of steps is not reached.", "anchors": ["src/nrlib/segy/segy.cpp:147-210"]}
{"id": "C17", "title": "simulation_size never reports less than the grid and never more than is simulated", "statement": "For positive steps and ranges simulation_size returns one number per used dimension, each strictly greater than the requested size and at most the size of the grid that simulate really uses.", "quantifier": "all variograms, sizes and positive steps", "why_tests_cant": "for all inputs; the reported size excludes the FFT rounding", "anchors": ["src/gaussfft.cpp: FindGridSizeAfterPadding", "src/nrlib/variogram/gaussianfield.cpp: FindNDimPadding"]}
{"id": "C18", "title": "Default padding covers the range", "statement": "In each used direction the default padding is longer than the variogram's range used for that direction, and the padded grid is at least as long as the type-specific multiple of that range; it is the shortest padding for which both (strictly) hold.", "quantifier": "all variogram types, ranges, steps and sizes", "why_tests_cant": "boundary behaviour of truncation for all real inputs", "anchors": ["src/nrlib/variogram/gaussianfield.cpp: FindGaussianFieldPadding", "src/nrlib/variogram/variogramtypes.hpp: GetPaddingRatio"]}
{"id": "C19", "title": "simulation_size and simulate agree on the dimension", "statement": "simulation_size has the same signature as simulate and should report as many dimensions as simulate simulates. It does when every direction with more than one cell has a non-negative step. The code violates it otherwise: with ny>1 and a negative (e.g. defaulted) dy simulate silently produces a one-dimensional field while simulation_size reports two dimensions.", "quantifier": "all argument combinations", "why_tests_cant": "tests pass consistent arguments only", "anchors": ["src/gaussfft.cpp: FindGridSizeAfterPadding, SimulateWithAdvancedSettings", "src/nrlib/variogram/gaussianfield.cpp: FindNDimPadding"]}
{"id": "C20", "title": "FFT grid size is the least 7-smooth size", "statement": "The FFT size chosen for a minimum size n>=2 is the smallest number >= n of the form 2^a 3^b 5^c 7^d, and the smallest such even number when evenness is required. For n=1 the evenness request is not honoured (refuted with witness).", "quantifier": "all sizes", "why_tests_cant": "infinitely many sizes", "anchors": ["src/nrlib/fft/fft.cpp: FindNewSizeWithPadding"]}
{"id": "C21", "title": "Variogram factory defaults", "statement": "variogram(type, r, perp, depth, azimuth, dip, power) has range r, perp if perp>=0 else r, depth if depth>=0 else r; angles are taken in degrees; the sill is 1. A range given as 0 is not replaced although the documentation says so (refuted with witness).", "quantifier": "all parameter values", "why_tests_cant": "all real parameters", "anchors": ["src/gaussfft.cpp: CreateVariogram", "src/gaussfftinterface.cpp: variogram_docstring"]}
{"id": "C22", "title": "Variogram type names", "statement": "The eight documented names select their type regardless of letter case, distinct names select distinct variogram types, and any other string selects spherical.", "quantifier": "all strings", "why_tests_cant": "all strings and all capitalisations", "anchors": ["src/gaussfft.cpp: CreateVariogram", "src/nrlib/iotools/stringtools.cpp: Uppercase", "gaussianfft/__init__.py: VariogramType"]}
{"id": "C23", "title": "Correlation is one at lag zero and bounded by one", "statement": "v.corr(0)=v.corr(0,0)=v.corr(0,0,0)=1 and 0 <= v.corr(x,y,z) <= 1 for every lag, every variogram type, all positive ranges, all angles (general_exponential: power>0).", "quantifier": "all variograms and lags", "why_tests_cant": "all real lags", "anchors": ["src/nrlib/variogram/variogramtypes.hpp: Corr1D", "src/nrlib/variogram/variogram.hpp: GetDistance"]}
{"id": "C24", "title": "Correlation is symmetric", "statement": "v.corr(-x,-y,-z)=v.corr(x,y,z) for all lags, and likewise for one and two arguments.", "quantifier": "all variograms and lags", "why_tests_cant": "all real lags", "anchors": ["src/nrlib/variogram/variogram.cpp: GetCorr"]}
{"id": "C25", "title": "Correlation decreases along rays", "statement": "Along every direction v.corr(t*x,t*y,t*z) is non-increasing in t>=0.", "quantifier": "all variograms, directions, and pairs of scalings", "why_tests_cant": "all real lags and all parameter values", "anchors": ["src/nrlib/variogram/variogramtypes.hpp: Corr1D"]}
{"id": "C26", "title": "Meaning of the range", "statement": "At exactly one range along a principal axis the correlation is 0 for spherical, exp(-3) for exponential, gaussian and general_exponential, within 0.001 of 0.05 for the Matern types, and 1 for constant; beyond it spherical is exactly 0 while the others except constant stay strictly between 0 and that value.", "quantifier": "all positive ranges and all azimuth and dip angles", "why_tests_cant": "all real parameters", "anchors": ["src/nrlib/variogram/variogramtypes.hpp", "src/nrlib/variogram/variogram.cpp: EstimateFactors"]}
{"id": "C27", "title": "Correlation with fewer arguments is the restriction", "statement": "v.corr(x)=v.corr(x,0)=v.corr(x,0,0) and v.corr(x,y)=v.corr(x,y,0).", "quantifier": "all variograms and lags", "why_tests_cant": "all real lags", "anchors": ["src/nrlib/variogram/variogram.hpp: GetDistance"]}
{"id": "C28", "title": "Anisotropy is the isotropic model in rotated scaled coordinates", "statement": "v.corr(x,y,z) is the one-dimensional model evaluated at the length of the vector whose components are the projections of (x,y,z) on the main, perpendicular and down-dip axes divided by the three ranges, where the axes are the orthonormal frame given by azimuth and dip.", "quantifier": "all ranges, angles and lags", "why_tests_cant": "all real parameters; a sign mistake in a cross term is invisible at 0 and 90 degrees", "anchors": ["src/nrlib/variogram/variogram.cpp: EstimateFactors lines 239-269"]}
{"id": "C29", "title": "Rotation invariances", "statement": "Azimuth and azimuth+180 degrees give the same correlation with dip reversed (same correlation if dip=0); angles are periodic with 360 degrees; if all three ranges are equal the angles do not matter; corr is invariant when lag and azimuth are rotated together about the z axis.", "quantifier": "all angles, ranges and lags", "why_tests_cant": "all real parameters", "anchors": ["src/nrlib/variogram/variogram.cpp: EstimateFactors"]}
{"id": "C30", "title": "Smoothing is off at values above 0.99999", "statement": "With sx,sy,sz at least 0.99999 advanced.simulate gives the same result as without smoothing; the test is made on each direction separately as documented by 'close to or greater than 1 means no smoothing'.", "quantifier": "all settings", "why_tests_cant": "threshold behaviour for all real settings", "anchors": ["src/nrlib/variogram/fftcovgrid.cpp: FFTCovGrid1D, FFTCovGrid2D, FFTCovGrid3D"]}
{"id": "C31", "title": "Smoothing multiplies the covariance by a Gaussian kernel", "statement": "With 0<s<0.99999 the covariance used at lag h along an axis is v.corr(h) times s^((h/r)^2), where r is the extent of the range ellipsoid used for that axis; it leaves the variance at 1, never increases a correlation, and equals s times the original at h=r.", "quantifier": "all settings, lags and variograms", "why_tests_cant": "all real settings", "anchors": ["src/nrlib/variogram/fftcovgrid.cpp: FindSmoothingFactors", "src/nrlib/variogram/fftcovgrid.hpp: FindSmoothingFactorX"]}
{"id": "C32", "title": "The covariance grid holds the minimum-image lag in every cell", "statement": "Every cell of the periodic covariance grid is written exactly with the covariance at the signed lag closest to zero (index i below half: i*dx, otherwise (i-n)*dx), in one, two and three dimensions; no cell is left at its initial value.", "quantifier": "all sizes and steps, every cell", "why_tests_cant": "loop-boundary mistakes affect single rows for odd or even sizes only", "anchors": ["src/nrlib/variogram/fftcovgrid.cpp: FFTCovGrid1D, FFTCovGrid2D, FFTCovGrid3D"]}
{"id": "C33", "title": "The covariance grid is point symmetric", "statement": "The covariance grid should satisfy c(-i,-j,-k)=c(i,j,k) on the periodic grid. True in one dimension and away from the half-grid planes in 2D/3D, and everywhere when azimuth and dip are zero; false in general on the half-grid plane for rotated anisotropic variograms with even size (refuted with witness). The simulated covariance is then that of the symmetrised grid.", "quantifier": "all sizes and variograms", "why_tests_cant": "only fails on a plane of cells for rotated variograms", "anchors": ["src/nrlib/variogram/fftcovgrid.cpp: FFTCovGrid2D, FFTCovGrid3D"]}
{"id": "C34", "title": "The inverse transform is only given Hermitian spectra", "statement": "FFTW's complex-to-real transform is meaningful only for spectra of real data. Every spectrum passed to it during simulate satisfies that requirement.", "quantifier": "all variograms, settings and draws", "why_tests_cant": "FFTW does not diagnose a violation", "anchors": ["src/nrlib/variogram/gaussianfield.cpp", "src/nrlib/fft/fftgrid2d.hpp: DoInverseFFT", "src/nrlib/fft/fft.hpp: ComputeFFTInv1D"]}
{"id": "C35", "title": "Forward and inverse FFT are mutual inverses", "statement": "DoFFT followed by DoInverseFFT on the 2D and 3D FFT grids, and ComputeFFT1D followed by ComputeFFTInv1D with the same scaling flag, return the original values, for both settings of the scaling flag.", "quantifier": "all sizes and all data", "why_tests_cant": "all data; scaling by size cancels only if done once on each side", "anchors": ["src/nrlib/fft/fftgrid2d.hpp: DoFFT, DoInverseFFT", "src/nrlib/fft/fftgrid3d.hpp", "src/nrlib/fft/fft.hpp: ComputeFFT1D, ComputeFFTInv1D"]}
{"id": "C36", "title": "Convolve computes the circular convolution", "statement": "After Convolve(filter) the 2D/3D FFT grid holds the circular convolution of its previous data with the filter's data if the filter was built without forward scaling, and that convolution divided by the square root of the number of cells if it was built with forward scaling. The grid's own scaling flag makes no difference.", "quantifier": "all sizes and data", "why_tests_cant": "all data", "anchors": ["src/nrlib/fft/fftgrid2d.hpp: Convolve", "src/nrlib/fft/fftgrid3d.hpp: Convolve, ConvolveNoFFT"]}
{"id": "C37", "title": "Uniform numbers stay in their documented interval", "statement": "For every seed and every number of draws Unif01 is in [0,1), Unif01Open in (0,1), and DrawUint32 below 2^32; the generator index never leaves its array.", "quantifier": "all seeds, all numbers of draws, all interleavings of the draw functions", "why_tests_cant": "period of the generator is astronomically larger than any test", "anchors": ["src/nrlib/random/dSFMT.h: dsfmt_genrand_close_open, dsfmt_genrand_open_open, dsfmt_genrand_uint32", "src/nrlib/random/random.hpp"]}
{"id": "C38", "title": "Block generation equals one-at-a-time generation", "statement": "Filling an array with the block functions gives the same numbers as drawing them one at a time from the same state, for every admissible array length, and leaves the generator so that subsequent draws continue the same stream. This holds if the buffered numbers are used up (as after seeding). Otherwise it is violated: the buffered numbers are skipped and the number drawn after the block repeats one of the block (refuted).", "quantifier": "all states and admissible lengths", "why_tests_cant": "all states", "anchors": ["src/nrlib/random/dSFMT.cpp: gen_rand_array_c1o2, dsfmt_gen_rand_all, dsfmt_fill_array_close1_open2"]}
{"id": "C39", "title": "The SIMD and the portable generator agree", "statement": "The SSE2 recursion and the portable recursion compute the same state from the same state, so streams do not depend on the build.", "quantifier": "all 128-bit states", "why_tests_cant": "2^384 input states", "anchors": ["src/nrlib/random/dSFMT-common.h: do_recursion"]}
{"id": "C40", "title": "Seeding always yields an admissible generator state", "statement": "After seeding with any value every word of the state has the exponent pattern of [1,2) and the period certificate holds: the parity check of the last state words is odd, so the state is not in the short-period subspace.", "quantifier": "all seeds", "why_tests_cant": "2^32 seeds, 2^64 check words", "anchors": ["src/nrlib/random/dSFMT.cpp: initial_mask, period_certification, dsfmt_chk_init_gen_rand, dsfmt_chk_init_by_array"]}
{"id": "C41", "title": "Global and object generators are the same generator", "statement": "A RandomGenerator object seeded with s produces the same uniform, normal and integer numbers as the global generator seeded with s, call by call.", "quantifier": "all seeds and call sequences", "why_tests_cant": "all call sequences", "anchors": ["src/nrlib/random/random.cpp", "src/nrlib/random/randomgenerator.cpp"]}
{"id": "C42", "title": "Normal numbers: range and termination conditions of the sampler", "statement": "Each branch of the normal sampler returns values in its own interval: the first in [-3,3), the second in [-1.5,1.5), the third in [-3,3), the tail branch outside [-3,3]; and rejection loops stop at the first accepted pair. The tail branch divides by zero if both tail uniforms are exactly one half (refuted with witness).", "quantifier": "all uniform sequences", "why_tests_cant": "all uniform sequences", "anchors": ["src/nrlib/random/random.cpp: Norm01, g", "src/nrlib/random/randomgenerator.cpp: Norm01, g"]}
{"id": "C43", "title": "No undefined behaviour for valid arguments", "statement": "For positive ranges, positive steps whose padding fits in an int and sizes of at least one, simulate performs no out-of-range array access, no invalid conversion from floating point to integer, and no division by zero. Negative or zero steps do lead to invalid conversions or wrapped sizes (refuted outside the precondition, with witnesses).", "quantifier": "all valid arguments and all generator states", "why_tests_cant": "memory errors at particular sizes only", "anchors": ["src/nrlib/variogram/gaussianfield.cpp", "src/nrlib/variogram/fftcovgrid.cpp", "src/nrlib/fft/fft.hpp", "src/nrlib/fft/fftgrid2d.hpp", "src/nrlib/fft/fftgrid3d.hpp"]}
{"id": "C44", "title": "Concurrent calls behave like some sequential order", "statement": "The extension module declares that it does not need the GIL. Claimed: simulate calls from several threads give the results of some sequential order. Refuted: the global generator is updated without synchronisation and two concurrent calls can draw the same number and return the same field. Calls that use separate generator objects do not interfere.", "quantifier": "all interleavings", "why_tests_cant": "schedule dependent", "anchors": ["src/gaussfftinterface.cpp: PYBIND11_MODULE mod_gil_not_used", "src/nrlib/random/random.cpp", "src/nrlib/random/dSFMT.h: dsfmt_genrand_uint32"]}
{"id": "C45", "title": "Two-argument-grid convenience simulation repeats itself", "statement": "The 2D overload that fills a caller's grid creates its own generator from the start seed: repeated calls return the same field and the global stream does not advance; if nothing was seeded it draws one number from the global stream.", "quantifier": "all histories", "why_tests_cant": "all histories", "anchors": ["src/nrlib/variogram/gaussianfield.cpp: lines 194-221"]}
{"id": "C46", "title": "Grid index and coordinates are inverse", "statement": "On 2D and 3D grids index(i,j,k) enumerates each of the ni*nj*nk cells exactly once in Fortran order and the index-to-coordinate function inverts it.", "quantifier": "all grid sizes and cells", "why_tests_cant": "all sizes", "anchors": ["src/nrlib/grid/grid.hpp: GetIndex, GetIJK", "src/nrlib/grid/grid2d.hpp: GetIndex, GetIJ"]}
{"id": "C47", "title": "Variogram setters keep the object valid", "statement": "After any sequence of range/angle/standard-deviation setters either an exception was thrown and the object is unchanged, or all ranges are positive and correlation values are those of a freshly built variogram with the current parameters (no stale cached factors).", "quantifier": "all setter sequences", "why_tests_cant": "all histories of setter calls", "anchors": ["src/nrlib/variogram/variogram.cpp: SetRanges, SetRangeX, SetAngles, RotateAngles, SetStdDev, LimitRangeX"]}
{"id": "C48", "title": "Variogram value and covariance are consistent", "statement": "GetCov + GetVariogram = variance for every lag, and the variogram is between 0 and the variance and zero at lag 0.", "quantifier": "all variograms and lags", "why_tests_cant": "all real lags", "anchors": ["src/nrlib/variogram/variogram.cpp: GetVariogram", "src/nrlib/variogram/variogram.hpp: GetCov"]}
{"id": "C49", "title": "Precomputed 2D covariance lookup", "statement": "CovGrid2D lookup returns the variogram's correlation at the lag for every pair of cells of the grid it was built for, is symmetric, and stays within its table; outside (deltaj=+-ny) it reads a wrong row or past the table (refuted with witness).", "quantifier": "all grids and lags", "why_tests_cant": "boundary lags only", "anchors": ["src/nrlib/variogram/covgrid2d.cpp: CovGrid2D, GetCov"]}
{"id": "C50", "title": "Binary readers invert binary writers", "statement": "Reading back a 16/32/64-bit number written in either byte order returns the same bits, for every value; a value written big-endian and read little-endian is byte-reversed.", "quantifier": "all bit patterns", "why_tests_cant": "2^64 patterns", "anchors": ["src/nrlib/iotools/fileio.hpp: WriteUInt16BE ... ParseUInt32LE, WriteIEEEDoubleBE ..."]}
{"id": "C51", "title": "IBM float conversion", "statement": "Converting an IEEE single to IBM format and back changes its value by a relative error of less than 2^-20 for normal numbers in range (the IBM format loses up to three bits), preserves sign and zero, and the IBM-to-IEEE-to-IBM direction is exact for normalised numbers in range.", "quantifier": "all 2^32 patterns", "why_tests_cant": "exhaustive numeric argument over a bit-level conversion", "anchors": ["src/nrlib/iotools/fileio.hpp: Ibm2Ieee, Ieee2Ibm"]}
{"id": "C52", "title": "String utilities", "statement": "Uppercase is idempotent and length preserving; trimming removes exactly the leading and trailing white space; tokenising returns maximal runs of non-space characters; Substitute(text,out,in) should replace each occurrence of out by in, which the code does only when both have equal length (refuted with witness).", "quantifier": "all strings", "why_tests_cant": "all strings", "anchors": ["src/nrlib/iotools/stringtools.cpp: Uppercase, Chomp, GetTokens, Substitute"]}
{"id": "C53", "title": "Fields of one call use disjoint draws", "statement": "When several fields are generated by one call of the 2D or 3D simulation functions, field k uses draws number k*n to (k+1)*n-1, n being the number of cells of the padded grid: no draw is used twice, so for independent draws the fields are independent and each has the law of a single field.", "quantifier": "all numbers of fields, all grids, variograms and paddings", "why_tests_cant": "independence is not observable on samples", "anchors": ["src/nrlib/variogram/gaussianfield.cpp: Simulate2DGaussianField, Simulate3DGaussianField"]}
{"id": "C54", "title": "Seed files", "statement": "Random::Initialize(file) seeds the generator with the number in the file, exactly as Initialize(number) does. A failed call should leave the generator as it was: true if the file cannot be opened; violated if the file cannot be read as a number, since the reported start seed is overwritten while the stream goes on unchanged (refuted with witness). WriteSeedToFile writes a number below 2^32, so that nothing is lost when it is read back and used as seed, and does nothing when no seed file is in use.", "quantifier": "all generator states, file names and file contents", "why_tests_cant": "all states and contents; the wrong report appears only after a failed read", "anchors": ["src/nrlib/random/random.cpp: Initialize(const std::string&), WriteSeedToFile, GetStartSeed"]}
{"id": "C55", "title": "Reading n numbers from a line", "statement": "ParseAsciiArrayFast(s,begin,n) reads the first n white-space separated fields of the line, in order, and throws if there are fewer. The second half is refuted: on a line that does not end with white space it never throws, whatever n, and reads fields again from the start.", "quantifier": "all lines without NUL, all n, any number parser", "why_tests_cant": "all lines and all n; the search position wraps around at npos+1 = 0 only for lines of one shape", "anchors": ["src/nrlib/iotools/stringtools.hpp:190-215"]}
{"id": "C56", "title": "Words and quotations on a line", "statement": "GetQuotedTokens returns the items of a line of words and quotations in order, a quotation as the text between its marks. True of lines that do not begin with a quotation mark; refuted for lines that do (wrong text returned), and an unclosed quotation makes it loop for ever.", "quantifier": "all lines of words and quotations separated by white space", "why_tests_cant": "all lines, any number of items; non-termination", "anchors": ["src/nrlib/iotools/stringtools.cpp:114-140"]}
{"id": "C57", "title": "Ranges and file of the precomputed 2D covariance", "statement": "GetRangeX returns the longest x part of a lag between cells whose correlation is at least 0.05, and 0 if there is none; GetRangeY does the same for y (refuted: it forgets lags whose parts have different signs, so a rotated anisotropic variogram gets a y range of 0 although cells two rows apart are correlated). WriteToFile writes the correlations of all lags between cells, row after row, with a matching header (refuted: the corners are two cells too far apart).", "quantifier": "all grids and variograms", "why_tests_cant": "only rotated anisotropic variograms show it", "anchors": ["src/nrlib/variogram/covgrid2d.cpp: GetRangeX, GetRangeY, WriteToFile"]}
{"id": "C58", "title": "Bins of the empirical variogram", "statement": "For a simulated field and a reference cell whose farthest cell is at distance M, EmpiricalVariogram.binned_variogram_statistics(resolution, field, cell) returns, for K = floor(M/resolution) bins of equal width from 0 to M, the average of the squared differences from the reference cell over exactly the cells whose distance is in the bin (nan if none); every cell is in exactly one bin; cell (i,j,k) of the field is the element i + nx*(j + ny*k) of the simulated array. With ny = 1 and nz > 1 the class cannot be used: no call to its simulate returns.", "quantifier": "all grids, steps, resolutions, reference cells, fields", "why_tests_cant": "all grid shapes and resolutions; values on bin edges", "anchors": ["gaussianfft/util/empirical_variogram.py:114-148", "gaussianfft/util/empirical_variogram.py:167-175"]}
{"id": "C59", "title": "The empirical variogram is unbiased", "statement": "If the squared difference of any two cells of the simulated fields has expectation 2(1 - rho), the number that EmpiricalVariogram.estimate_variogram returns for a bin has as expectation the average, over the reference points that have that bin, of the averages of rho over the pairs in the bin; whatever the dependence between the fields, the number of fields and the reference points.", "quantifier": "all grids, reference points, numbers of fields, distributions", "why_tests_cant": "a statement about expectations", "anchors": ["gaussianfft/util/empirical_variogram.py:23-68"]}
{"id": "C60", "title": "Distances of the empirical variogram", "statement": "The distance returned with an estimate is the middle of its bin, and the pairs averaged are at distances within that bin. Refuted: the distance is the upper end of the bin; on a line with a resolution of one cell the correlation at b*dx is returned with the distance (b+1)*dx, also with the exact test data of the class; reference points other than the corner have other bins, so that pairs farther apart than the returned distance are averaged. The second part is true if the farthest distances are multiples of the resolution.", "quantifier": "all grids and resolutions", "why_tests_cant": "the shift is one bin, hidden by noise in a test", "anchors": ["gaussianfft/util/empirical_variogram.py:128-139", "gaussianfft/util/empirical_variogram.py:150-164"]}
{"id": "C61", "title": "Reference points", "statement": "pick_reference_points: 'all' gives every cell once; 'origo' and 'center' give one cell of the grid; 'regular' with 1 <= n <= number of cells gives distinct cells, at least n and less than 2n of them; with more it raises ValueError.", "quantifier": "all grids, all n", "why_tests_cant": "all grid sizes and n", "anchors": ["gaussianfft/util/empirical_variogram.py:84-108"]}
{"id": "C62", "title": "Names of the Python package", "statement": "Every member of VariogramType is accepted by variogram, gives the same object as its value as a string, and has its own type. Every name that the package exports exists: refuted, 'from gaussianfft import *' raises AttributeError because of SizeTVector and DoubleVector.", "quantifier": "all members, all ranges and angles; all exported names", "why_tests_cant": "all parameter values", "anchors": ["gaussianfft/__init__.py:13-34", "src/gaussfftinterface.cpp:167-258"]}
{"id": "C63", "title": "Law of the normal numbers", "statement": "Fed with independent uniform numbers from [0,1), successive normal numbers of the generator are returned with probability one, are independent and have one common law. This law is symmetric, gives every event the probability of the standard normal law up to a factor between 1 - 2e-8 and 1 + 2e-8, has mean 0 and variance 1 up to 2e-8, and is the same for the global generator and for generator objects. It is not exactly the normal law: values beyond 3 in absolute value have probability 0.0026997961, which is too large.", "quantifier": "all sources of uniform numbers, all probability spaces, all events", "why_tests_cant": "a test sees finitely many numbers; an error of one part in fifty million in the law of the draws, or dependence between draws after a rejection, is invisible in samples", "anchors": ["src/nrlib/random/random.cpp:64-118 (Norm01), 144-159 (g)", "src/nrlib/random/randomgenerator.cpp:71-126, 139-155"]}
{"id": "C64", "title": "Law of the simulated fields", "statement": "Fields simulated from independent uniform numbers are returned with probability one, and are nearly Gaussian: the probability that the field (or all K fields of one call together) lies in a set is, up to a factor (1 ± 2e-8)^N with N the number of padded cells, that of a Gaussian vector with mean 0 and the covariance of C05; different fields are independent up to this factor. The mean is exactly 0, and the covariance is that of C05 times one constant between 1 - 2e-8 and 1 + 2e-8.", "quantifier": "all variograms, grids and settings that satisfy the hypotheses of C01; all probability spaces; all sets of fields", "why_tests_cant": "a statement about every event of a high-dimensional law", "anchors": ["src/nrlib/variogram/gaussianfield.cpp:60-360", "src/nrlib/random/random.cpp:64-118"]}
{"id": "C65", "title": "Draws, distribution function and quantiles of a distribution object agree", "statement": "For a continuous distribution object with admissible parameters there is one law such that successive draws return with probability one and are independent with this law, Cdf(x) is the probability of values up to x, and Quantile(p), for 0 < p <= 1, is the least value whose Cdf is p or more. The law is the one the class is named after: uniform on [min, max], triangular, half the mass uniform on each side of the middle value, the power law with the given exponent between min and max, or the point mass.", "quantifier": "all admissible parameters, all arguments, all sources of independent uniform numbers", "why_tests_cant": "agreement of a law with a formula for all parameters, including degenerate ones (mode at an end), cannot be seen from samples", "anchors": ["src/nrlib/random/uniform.hpp, triangular.hpp, splituniform.hpp, fractal.hpp, delta.hpp, distribution.hpp:51-61"]}
{"id": "C66", "title": "Pdf is the density of the law of the draws", "statement": "For every continuous distribution object, Pdf is finite, non-negative and a density of the law of the draws.", "quantifier": "all admissible parameters, all arguments", "why_tests_cant": "integrals over the real line", "anchors": ["src/nrlib/random/uniform.hpp:60-66, triangular.hpp:63-79, splituniform.hpp:67-79, fractal.hpp:58-65"]}
{"id": "C67", "title": "Integers drawn from a histogram", "statement": "An object made from a histogram of non-negative numbers with positive sum describes the law with P(k) = hist[k]/sum: draws are independent with this law, Pdf(k) and Cdf(k) are the probabilities of k and of values up to k for 0 <= k < size, and Quantile(p) for 0 < p <= 1 is the least k whose Cdf is p or more. All reads are in range. An empty histogram makes Quantile read out of range; a histogram of zeros gives NaN.", "quantifier": "all histograms of any length, all arguments", "why_tests_cant": "arbitrary lengths and weights, including zeros; laws of draws", "anchors": ["src/nrlib/random/generaldiscrete.cpp:26-61", "src/nrlib/random/generaldiscrete.hpp:39-62"]}
{"id": "C68", "title": "Draws from a part of the power law", "statement": "DrawFromUpperQuantile(q), DrawFromLowerQuantile(q) and DrawFromMiddleQuantile(q1, q2) give independent values with the law of the distribution given that the value is above the q-quantile, up to the q-quantile, or between the two quantiles. With a lower limit the q-quantile is that of the values above the limit.", "quantifier": "all parameters with 0 < min < max, dimension > 0; all quantile levels; all limits below max", "why_tests_cant": "laws of draws for all parameters", "anchors": ["src/nrlib/random/fractal.cpp:45-91"]}
{"id": "C69", "title": "Binomial distribution", "statement": "An object Binomial(n, p) describes the binomial law: draws are independent with P(k) = C(n,k) p^k (1-p)^(n-k), Pdf(k) and Cdf(k) are the probabilities of k and of values up to k for every integer k, and Quantile(q), 0 < q <= 1, is the least k whose Cdf is q or more.", "quantifier": "all n from 0 to 2^30, all p in [0,1] including 0 and 1, all arguments, all sources of independent uniform numbers", "why_tests_cant": "law of draws and a binary search for all n and p", "anchors": ["src/nrlib/random/binomial.cpp:29-110", "src/nrlib/random/binomial.hpp:30-50"]}
{"id": "C70", "title": "Poisson distribution", "statement": "An object Poisson(lambda) describes the Poisson law: draws end, are non-negative and independent with P(k) = exp(-lambda) lambda^k / k!, Pdf(k) and Cdf(k) are the probabilities of k and of values up to k for every k >= 0, and Quantile(q), 0 < q < 1, is the least k whose Cdf is q or more.", "quantifier": "all lambda > 0, all k, all sources of independent uniform numbers", "why_tests_cant": "law of draws for all means; overflow depends on the argument", "anchors": ["src/nrlib/random/poisson.cpp:29-230", "src/nrlib/random/poisson.hpp:30-60"]}
{"id": "C71", "title": "Transform sizes and padding survive rounding", "statement": "With IEEE double and float rounding of every operation, and a library logarithm that is only accurate to a given relative error: the transform size chosen for a padded size up to 2^24 (double logarithms) or 2^17 (float logarithms) is still the least admissible one and never less than the padded size; the default padding is within one cell of the exact least one and always longer than the range; so simulate returns for all grids up to these sizes.", "quantifier": "all sizes, ranges, steps, variogram types; all logarithms within the error bound; all roundings", "why_tests_cant": "one wrong rounding among millions of sizes gives a buffer overrun; platform dependent", "anchors": ["src/nrlib/fft/fft.cpp:51-84", "src/nrlib/variogram/gaussianfield.cpp:43-88"]}
{"id": "C72", "title": "Correlations in double arithmetic", "statement": "With every operation of the construction and of the correlation functions rounded to a double, and a mathematical library with error at most 2^-52: a variogram with ranges between a and b (between 2^-100 and 2^100, b at most 2^18 a), any rotation up to a full turn and lags that are zero or of size 2^-100 to 2^100 never gives NaN, and its correlation for one, two or three lags differs from the exact correlation by at most 2^-36 (b/a)^2; the correlation of lag zero is exactly 1 and opposite lags give identical results; the computed correlation is never NaN and never above 1.", "quantifier": "all types, ranges, angles, powers in (0,2], lags within the stated bounds, all libraries within the error bound", "why_tests_cant": "cancellation in the quadratic form shows up only for particular ranges, angles and lags", "anchors": ["src/nrlib/variogram/variogram.cpp:203-269", "src/nrlib/variogram/variogram.hpp:118-127", "src/nrlib/variogram/variogramtypes.hpp:56-280", "src/gaussfft.cpp:55-93"]}
{"id": "C73", "title": "Variogram estimation by distance classes", "statement": "An EmpiricalVariogram2 object returns, for the cells nearer to the first cell than the close range and for the cells on multiples of the step, every distance from the first cell that occurs, each exactly once, and with each distance the mean and the standard deviation over the simulated fields of the mean of the squared differences from the first cell over exactly the cells at that distance. For fields with mean 0 and the covariance corr times smoothing kernel, the expectation of the returned mean at distance x is 2 (1 - corr(x) * 1e-5 ** ((x / r) ** 2)) for an isotropic variogram of range r.", "quantifier": "for all variograms, grid sizes with a diagonal of at most 5e9 cells (not one cell in y with several in z), paddings, positive close ranges, steps, numbers of fields and fields", "why_tests_cant": "The classes are found as connected components of a graph with a tolerance; whether points at different distances are ever merged depends on all pairs of distances in the grid. Expectations cannot be observed by a test, only estimated.", "anchors": ["gaussianfft/util/empirical_variogram2.py:14-52", "gaussianfft/util/empirical_variogram2.py:55-63", "gaussianfft/util/empirical_variogram2.py:66-81", "gaussianfft/util/empirical_variogram2.py:84-122"]}
{"id": "C74", "title": "Uniform and histogram draws in double arithmetic", "statement": "With every operation rounded to a double: a draw from the uniform distribution on [min, max] lies in [min, max], in every state of the generator; its quantile function is monotone and within 2^-50 max(|min|, |max|) of the exact one, and stays in the interval for all arguments from 0 to 1. For a histogram of at most 2^20 bins with weights that are 0 or between 2^-400 and 2^400, the probabilities and cumulated probabilities returned are those of the histogram up to (3 n + 1) 2^-52 and at most 1; Quantile returns, for all arguments from 0 to 1, a bin of the histogram that brackets the argument up to that error and is not empty; and every draw returns a bin.", "quantifier": "all doubles min <= max, all generator states, all histograms within the bounds, all arguments", "why_tests_cant": "whether a cumulated sum of rounded quotients ends below or above 1 depends on the weights in all bits, and the draw that then reads past the array has probability 2^-52", "anchors": ["src/nrlib/random/uniform.hpp:83-86", "src/nrlib/random/generaldiscrete.cpp:26-61", "src/nrlib/random/generaldiscrete.hpp:36-62", "src/nrlib/random/distribution.hpp:51-61"]}
{"id": "C75", "title": "Deviations reported by the padding analyzer", "statement": "A PaddingAnalyzer object simulates nmax fields for each pair of range and padding, all from the one given seed, so that equal arguments give equal objects. deltas[j, i, :] belongs to padding number j and range number i, is the estimated correlation minus the correlation function after the last of the nmax fields, and refers to the distances grid; the paddings reported are those simulated with, as fractions of n; where the fields have the right covariance, the expectation of every entry is 0. The convergence analysis of EmpiricalVariogram with step t reports the deviations after 1, 1 + t, 1 + 2t, ... fields.", "quantifier": "for all lists of ranges and paddings, grid lengths, numbers of cells and fields, seeds, variogram types and dimensions, and all states of the generator before", "why_tests_cant": "The deviations are random; a systematic one is hidden in sampling noise unless its expectation is computed. Which fields enter which entry is not visible in the result.", "anchors": ["gaussianfft/util/padding_analyzer.py:23-65", "gaussianfft/util/padding_analyzer.py:67-76", "gaussianfft/util/empirical_variogram.py:23-68", "gaussianfft/util/empirical_variogram.py:178-191"]}
{"id": "C76", "title": "Fields simulated in double arithmetic", "statement": "With every operation of the simulation rounded to a double, a mathematical library with an error of at most 2^-52 and transforms with a relative error of eps (at most 2^-20): a simulation in one, two or three dimensions with a variogram made by variogram() with ranges between a and b (at most 2^16 a), without smoothing, returns fields of the requested shape without NaN. The root of the sum of the squared differences to the exactly filtered noise is at most 3 sqrt(N eta) times the root of the sum of squares of the draws (N cells with padding, eta = 2^-35 (b/a)^2 + 2 eps), plus 2^-800. For uncorrelated draws of mean 0 and variance 1 the mean of the sum of the squared differences is at most N (27 sqrt(N) eta + 17000 N eps^2) + 2^-1000.", "quantifier": "for all types, ranges, angles, powers in (0,2], grids, steps between 2^-100 and 2^60, paddings, numbers of fields, draws, and all mathematical and transform libraries within the error bounds; for any other variogram or smoothing in terms of the error of the single covariances", "why_tests_cant": "The exact result is not available to compare with; rounding makes small eigenvalues negative, where the square root amplifies errors, only for particular ranges, grids and libraries.", "anchors": ["src/nrlib/variogram/gaussianfield.cpp:96-349", "src/nrlib/variogram/fftcovgrid.cpp:31-322", "src/nrlib/fft/fft.hpp:79-146", "src/nrlib/fft/fftgrid2d.hpp:208-233", "src/nrlib/fft/fftgrid3d.hpp:230-254", "src/gaussfft.cpp:55-93"]}
{"id": "C77", "title": "Surface values are weighted averages of the nodes around", "statement": "RegularSurface::GetZ(x, y) is the average of the values of the nodes that have one, weighted with bilinear interpolation weights, and the missing value where no such node is closer than one node distance in both directions. So it gives back the node values at the nodes, lies between the values of the nodes around, is continuous where a node with a value is near, reproduces every function a + bx + cy + exy exactly when no node is missing, and up to one node distance outside the grid it is the value at the nearest point of the grid.", "quantifier": "for all surfaces with fewer than 2^31 nodes in each direction and non-zero node distances, all patterns of missing nodes, all points whose cell number fits an int", "why_tests_cant": "Every pattern of missing corners and every side of the grid has its own path through the weights; left of and below the grid the fractions passed to the weights are negative, and only the division by their sum saves the result.", "anchors": ["src/nrlib/surface/regularsurface.hpp:328-395", "src/nrlib/surface/regularsurface.hpp:640-704", "src/nrlib/surface/regularsurface.hpp:851-864"]}
{"id": "C78", "title": "Values inside a surface", "statement": "At every point for which IsInsideSurface is true and whose surrounding nodes have values, GetZInside gives the same value as GetZ, and a value that is not the missing value.", "quantifier": "for all surfaces and points", "why_tests_cant": "The edges of a surface are a set of measure zero; a value that happens to equal the missing value needs particular node values.", "anchors": ["src/nrlib/surface/regularsurface.hpp:398-429"]}
{"id": "C79", "title": "Nodes, node numbers and cells of a surface", "statement": "Node number i + j GetNI() has the coordinates of node (i, j), and both ways from number to node agree. FindNearestNodeIndex gives the node nearest to any point, inside or outside the grid. FindIndex gives, for each point inside the surface, a cell of the grid that contains it.", "quantifier": "for all surfaces with fewer than 2^31 nodes in each direction and all points in reach of int cell numbers", "why_tests_cant": "Ties and edges are single points; one-column surfaces with a length are unusual.", "anchors": ["src/nrlib/surface/regularsurface.hpp:166-175", "src/nrlib/surface/regularsurface.hpp:602-667"]}
{"id": "C80", "title": "Arithmetic and statistics of a surface skip missing nodes", "statement": "Add, Subtract and Multiply change the nodes that have a value and no others; Assign sets all. Min, Max, MinNode and MaxNode give the extreme of the nodes that have a value, with its node, and the missing value if there are none. Avg is the mean of the nodes that have a value. CreateNeighbourAvg gives a node the mean of its up to eight neighbours that have one, and no value if there are none. A node that has a value keeps having one under Add.", "quantifier": "for all surfaces, missing patterns and constants", "why_tests_cant": "Combinations of missing nodes at corners and edges; a sum that equals the missing value needs a particular constant.", "anchors": ["src/nrlib/surface/regularsurface.hpp:77-102", "src/nrlib/surface/regularsurface.hpp:502-586", "src/nrlib/surface/regularsurface.hpp:707-771"]}
{"id": "C81", "title": "Arithmetic with another surface", "statement": "AddNonConform, SubtractNonConform, MultiplyNonConform and DivideNonConform combine each node with the value of the other surface at that node's coordinates. A node has a value afterwards only if both surfaces had one; nothing else changes. Two surfaces with the same nodes are combined node by node, whatever their missing values; a constant surface is never missing.", "quantifier": "for all surfaces, all other surfaces (regular, rotated, constant, or any that can be evaluated at the nodes), all missing patterns; for division, where the other surface is not zero", "why_tests_cant": "The second surface has another grid and another missing value, so that each node has its own case of interpolation and missing corners.", "anchors": ["src/nrlib/surface/regularsurface.hpp:432-499", "src/nrlib/surface/surface.hpp:29-130"]}
{"id": "C82", "title": "Rotated surfaces", "statement": "The local and global coordinates of a rotated surface are inverse isometries. At the coordinates of its own nodes it has the values of the nodes, and turning a surface turns its values. Its bounding box contains every point inside and each side touches the surface. EnclosesRectangle is true only if all points of the rectangle are inside. The bounding box belongs to the current angle. Arithmetic with another surface uses the turned nodes.", "quantifier": "for all surfaces with non-negative lengths, angles, points and rectangles", "why_tests_cant": "False answers of EnclosesRectangle need a rectangle near a corner of the box; the stale box needs a call of SetAngle after construction.", "anchors": ["src/nrlib/surface/regularsurfacerotated.hpp:153", "src/nrlib/surface/regularsurfacerotated.hpp:228-456"]}
{"id": "C83", "title": "Resampling a rotated surface", "statement": "Each node of the surface returned by ResampleSurface has the value of the rotated surface at the coordinates of that node.", "quantifier": "for all rotated surfaces", "why_tests_cant": "The displacement is zero at the first node and grows with the index; it vanishes when the bounding box is a whole number of node distances, as in simple test cases.", "anchors": ["src/nrlib/surface/regularsurfacerotated.hpp:458-480"]}
{"id": "C84", "title": "Surface files: what is written is read back", "statement": "A surface written in Irap classic format and read again, with the format given or found from the file, has the same number of nodes, the same nodes missing, values within 5e-7, node coordinates within 0.005 plus 5e-7 for each cell from the corner, and an angle within 5e-7 degrees. What the receiving surface held before does not matter.", "quantifier": "for all surfaces of fewer than 2^31 nodes each way, all values, missing values and angles", "why_tests_cant": "The loss is at one code value in the middle of the range of doubles, and at node distances far below those in tests.", "anchors": ["src/nrlib/surface/surfaceio.hpp:166-229", "src/nrlib/surface/surfaceio.hpp:370-418", "src/nrlib/surface/surfaceio.cpp:51-80", "src/nrlib/surface/regularsurface.hpp:797-847", "src/nrlib/iotools/fileio.hpp:471-531", "src/nrlib/iotools/fileio.cpp:207-231"]}
{"id": "C85", "title": "Surface files: any file is read safely", "statement": "Whatever a file contains, reading it as Irap classic either throws or returns a surface with one value for each of its nodes.", "quantifier": "for all files", "why_tests_cant": "Needs malformed files; a test with too few values is rejected and gives the impression of a check.", "anchors": ["src/nrlib/surface/surfaceio.hpp:166-229", "src/nrlib/grid/grid2d.hpp:107-115", "src/nrlib/iotools/fileio.hpp:513-531", "src/nrlib/iotools/fileio.cpp:314-326"]}
{"id": "C86", "title": "Surface files: a cut file is rejected", "statement": "If a file with at least one value is accepted, the same file followed by more text is accepted exactly if that is white space, and gives the same surface. So a file that has lost anything but white space at its end is never accepted, even if it was cut in the middle of a number.", "quantifier": "for all files, cut anywhere", "why_tests_cant": "Needs every position of the cut; a number that lost its last digits is a number.", "anchors": ["src/nrlib/surface/surfaceio.hpp:166-229", "src/nrlib/iotools/fileio.hpp:513-531", "src/nrlib/iotools/fileio.cpp:207-231"]}
{"id": "C87", "title": "Text files: quotations", "statement": "Reading the next quotation gives the text between the next two quotation marks, leaves the stream after the second, and throws if there is no complete quotation.", "quantifier": "for all texts and quotation marks", "why_tests_cant": "Empty and unclosed quotations do not occur in tests.", "anchors": ["src/nrlib/iotools/fileio.cpp:419-448"]}
{"id": "C88", "title": "Text files: comments", "statement": "Skipping comments leaves the stream at the first character that is neither white space nor in a comment, or at the end of the file.", "quantifier": "for all texts and comment symbols other than white space", "why_tests_cant": "Undefined behaviour at the end of a file usually goes unnoticed.", "anchors": ["src/nrlib/iotools/fileio.cpp:285-326"]}
{"id": "C89", "title": "Text files: the array readers", "statement": "The two readers of arrays of numbers read the same numbers from the same text, and read back what the writer of arrays wrote: integers exactly, numbers written with p decimals within half a unit of the last one.", "quantifier": "for all texts, arrays, and numbers of elements per line", "why_tests_cant": "The two readers differ only at the end of a file and without white space between numbers.", "anchors": ["src/nrlib/iotools/fileio.hpp:484-531", "src/nrlib/iotools/fileio.hpp:471-479"]}
{"id": "C90", "title": "Statistics of sequences", "statement": "The greatest and least element found are the first greatest and least of the values that are not missing; sums, means and variances with missing values are those of the other values. For two or more values the variance is the covariance of the sequence with itself, is zero exactly if all values are equal, does not change under a shift and scales with the square of a factor; the squared covariance is at most the product of the variances. Variance and covariance are unbiased for uncorrelated draws. Wherever the variance of a sequence is given, so is its covariance with itself.", "quantifier": "for all sequences, tests for missing values, and laws with finite second moments", "why_tests_cant": "Expectations are integrals over all samples; the extremes depend on the order of ties and missing values.", "anchors": ["src/nrlib/statistics/statistics.hpp:139-355"]}
{"id": "C91", "title": "Kriging in one dimension", "statement": "From observations in some cells of a one-dimensional field, kriging gives the known cells their observations and every other cell the best linear prediction: if the true values are random with the field as mean and the correlations of the variogram, no other affine function of the observations has a smaller mean squared error. It throws exactly if the correlation matrix of the known cells is not positive definite: never with an exponential or Gaussian variogram, always with a constant variogram and two or more known cells. The number of observations must be the number of known cells.", "quantifier": "for all fields, patterns of known cells, observations, spacings, variograms, and laws of the true values", "why_tests_cant": "Optimality is a statement about all other predictors and all laws; positive definiteness depends on all patterns of known cells.", "anchors": ["src/nrlib/statistics/kriging.cpp:46-102", "src/nrlib/flens/nrlib_flens.cpp:128-137"]}
{"id": "C92", "title": "Text files: the rest of a line", "statement": "Discarding the rest of a line leaves the stream at the next line; if asked to, it throws exactly if the rest of the line has characters other than white space.", "quantifier": "for all lines and texts after them", "why_tests_cant": "Last lines without an end do not occur in tests.", "anchors": ["src/nrlib/iotools/fileio.cpp:233-248"]}
{"id": "C93", "title": "Kriging data at the nodes of a grid", "statement": "Data points on a surface become data at grid nodes: each node occurs at most once, the nodes are those of the cells of the points that are not missing (99999), the value is the mean over the points of the node, and the order of the points does not matter. A point outside the surface is undefined behaviour. The data of a block are those within its bounds, ends included, and not 99999.", "quantifier": "for all lists of points, surfaces and blocks", "why_tests_cant": "Merging depends on all pairs of points; a mean that equals the code for a missing value is not in any test.", "anchors": ["src/nrlib/statistics/nodalkrigingdata2d.cpp:49-65", "src/nrlib/statistics/nodalkrigingdata2d.cpp:74-114", "src/nrlib/statistics/nodalkrigingdata2d.cpp:135-170"]}
{"id": "C94", "title": "Kriging in two dimensions, all data at once", "statement": "From data at nodes of a grid, kriging with all data gives the data nodes their values and every other node the best linear prediction: if the true values are random with the grid as mean and the correlations of the variogram, no other affine function of the data has a smaller mean squared error. It throws exactly if the correlation matrix of the data is not positive definite, and never with a Gaussian variogram. The grid of residuals is this grid minus the trend.", "quantifier": "for all grids, sets of data at different nodes, variograms, spacings, orders of the blocks, and laws of the true values", "why_tests_cant": "Optimality is a statement about all other predictors and all laws; positive definiteness about all sets of nodes.", "anchors": ["src/nrlib/statistics/kriging.cpp:106-133", "src/nrlib/statistics/kriging.cpp:189-327", "src/nrlib/statistics/kriging.cpp:881-1001"]}
{"id": "C95", "title": "Kriging in two dimensions, in blocks", "statement": "Kriging in blocks, the default, succeeds whenever the correlation matrix of all data is positive definite, and its result does not depend on the order of the blocks. Every node is kriged from a window of data that includes the data within P/2 ranges and excludes those farther than a block and 2P ranges; a node without such data keeps the trend, or gets residual 0. Data nodes get their values. If P/2 ranges are as long as the grid, the result is that of all data at once.", "quantifier": "for all grids, sets of data at different nodes, variograms, spacings, P at least 0, and orders of the blocks", "why_tests_cant": "The windows come from a search that depends on the number of data near each block; grids whose size is not a multiple of ten, and more than 200 data, take other paths.", "anchors": ["src/nrlib/statistics/kriging.cpp:189-392", "src/nrlib/statistics/kriging.cpp:456-569", "src/nrlib/statistics/kriging.cpp:575-660", "src/nrlib/statistics/kriging.cpp:840-963", "src/nrlib/statistics/nodalkrigingdata2d.cpp:135-170"]}
{"id": "C96", "title": "Kriging in two dimensions from data anywhere", "statement": "Kriging a surface from data at any points, all data at once, adds to every node the residuals of the data, weighted by the solution of the kriging system. This is the linear prediction with the least mean squared error. A datum at a node is honoured. The function throws exactly if the covariance matrix of the data is not positive definite: never for the Gaussian variogram and different points, always if two data share a point. Data outside the surface do not disturb it, and missing nodes stay missing.", "quantifier": "for all surfaces, sets of points within the reach of int indices, variograms, and conversions to float", "why_tests_cant": "Optimality is a statement about all other predictors and all random fields; singular systems and data outside the surface or with values that look like missing values need special inputs.", "anchors": ["src/nrlib/statistics/kriging.cpp:140-165", "src/nrlib/statistics/kriging.cpp:189-327", "src/nrlib/statistics/kriging.cpp:1003-1117", "src/nrlib/statistics/continuouskrigingdata2d.cpp:33-70", "src/nrlib/statistics/continuouskrigingdata2d.cpp:114-136"]}
{"id": "C97", "title": "Kriging in two dimensions from data anywhere, in blocks", "statement": "Kriging a surface from data at any points in blocks, the default, succeeds whenever the covariance matrix of all data is positive definite, and its result does not depend on the order of the blocks. Every node is kriged from a window of data that includes the data on the surface within P/2 ranges and excludes those farther than a block and 2P ranges; a node without such data keeps the trend, or gets residual 0. A datum at a node is honoured. If P/2 ranges are as long as the surface, the result is that of all data at once.", "quantifier": "for all surfaces, sets of points within the reach of int indices, variograms, P at least 0, conversions to float, and orders of the blocks", "why_tests_cant": "The windows come from a search that depends on the number of data near each block; surfaces whose size is not a multiple of ten, and more than 200 data, take other paths.", "anchors": ["src/nrlib/statistics/kriging.cpp:140-186", "src/nrlib/statistics/kriging.cpp:189-392", "src/nrlib/statistics/kriging.cpp:575-660", "src/nrlib/statistics/kriging.cpp:840-878", "src/nrlib/statistics/kriging.cpp:1003-1117", "src/nrlib/statistics/continuouskrigingdata2d.cpp:90-136"]}
{"id": "C98", "title": "Kriging in two dimensions from points moved to nodes", "statement": "With an index grid, every datum is moved to the lower left corner of its cell, and a node gets the mean of the data moved to it, or this mean minus the trend if residuals are asked for. The other nodes get the trend plus weighted residuals of these means. For the Gaussian variogram this never throws, even if points coincide; in general it throws exactly if the correlation matrix of the nodes is not positive definite. A datum at a node is honoured.", "quantifier": "for all surfaces, sets of points on the surface, variograms and orders of the blocks", "why_tests_cant": "All combinations of points in cells and of variograms; the chain passes through three data structures.", "anchors": ["src/nrlib/statistics/kriging.cpp:140-165", "src/nrlib/statistics/nodalkrigingdata2d.cpp:49-114", "src/nrlib/statistics/kriging.cpp:189-327"]}
{"id": "C99", "title": "Linear interpolation in one dimension", "statement": "Linear interpolation between points returns, for every place between two neighbouring points, the value on the line through them, and outside the points the value on the line through the first or the last two. So points are honoured, and affine functions are reproduced exactly. With fewer than two points the behaviour is undefined.", "quantifier": "for all lists of two or more points with increasing places, and all lists of places to interpolate at", "why_tests_cant": "The places fall in any interval, at points, or outside; the search compares distances with 1e10, and there is a special case for repeated points.", "anchors": ["src/nrlib/geometry/interpolation.cpp:14-42", "src/nrlib/geometry/interpolation.cpp:66-99", "src/nrlib/geometry/interpolation.cpp:181-198"]}
