# Formal model of gaussianfft: design

The subject is equinor/gaussianfft at the commit in `/repo`.  The model and the
proofs are in Lean 4 under `lean/Verif`.  The code is never run.  Every model
definition cites the file and lines it was read from.

Contents: 1 modelling decisions, 2 modules, 3 what is modelled and what is not,
4 plan and result per property, 5 findings, 6 tests against wrong programs,
7 trusted base.

## 1. Modelling decisions

* **Outcomes.** C++ functions become functions into `Res α`
  (`Verif/Model/Outcome.lean`): `ok a`, `throws msg` (C++ exception), `ub why`
  (undefined behaviour: out-of-range array access, out-of-range float-to-int
  conversion, signed overflow, failed assertion), `nonfinite why` (a double operation that
  produces inf or NaN and that exact arithmetic has no value for) and
  `diverges` (a loop that never ends).  Theorems that say a call "returns" always
  say `= ok _`, so they include absence of all the others.
* **Numbers.** `double` is modelled by exact real arithmetic (`ℝ`, `ℂ`), `float` too.
  Rounding error is outside the model, except where it decides a size: the choice of the
  transform size and of the padding (`Model/Ieee`, `Model/FftSize`, `Model/Padding`) is modelled with
  every operation rounded to IEEE double or float, `pow` of integers correctly rounded, and a
  logarithm that is only known to have a given relative accuracy.  The correlation functions are
  modelled twice, exactly (`Model/Variogram`) and rounded (`Model/VariogramFl`, C72), and so is the
  whole simulation (`Model/Field`, and rounded in `Model/FieldFl`, C76).  Where a real operation would be a
  totalised definition (division by zero, log of zero, negative power of zero) the model
  returns `nonfinite`.  Integers and bits that matter are exact: `size_t`
  arithmetic that can wrap is written modulo 2^64, `int` conversions are
  checked, the random generator is on 64-bit words, byte I/O is on bytes.
* **Arrays and loops.** Arrays are lists with checked reads and writes (out of range
  is `ub`).  `for` loops are `forRange lo hi body state`; per-cell results are proved
  with loop invariants, they are not built into the model.  Loops that stop on a
  condition are `untilLoop step s` (`Model/Loop.lean`), which is `diverges` exactly if
  the loop never stops; there is no fuel.
* **FFTW** is a parameter: a structure with r2c and c2r transforms in one, two and
  three dimensions and their documented laws (`r2c` gives the non-redundant half
  of the DFT; `c2r` gives the unnormalised inverse DFT *if its input is half of a
  Hermitian spectrum*; no promise otherwise).  A concrete instance is constructed
  so that the laws are known to be satisfiable (`fftw_laws_inhabited`).  In C76 the
  transforms need not be exact: `Fftw.Near ε` bounds the norm of their error by `ε` times
  that of the result (`refFftw_near` shows it can be met).
* **Clock.** `time(0)` is an input.
* **Random numbers in covariance statements.** The field is a matrix `A` applied
  to the vector of normals; "covariance" is `A Aᵀ`, which is the covariance for
  any uncorrelated unit-variance draws.  The laws are also stated for measures: for
  independent standard normal draws the field is Gaussian with that covariance.
* **The normal sampler's law.** `norm01With` is the sampler over any source of uniform numbers.  C63 and
  C64 feed it with independent continuous uniform numbers, an idealisation: the numbers of the real
  generator are multiples of 2^-52 from a deterministic recursion (C14, C38, C40).

## 2. Modules

| module | models |
|---|---|
| `Model/Outcome`, `Model/Loop` | outcome monad, loops, checked arrays |
| `Model/VariogramFl` | the correlation functions with every operation rounded; the mathematical library is a parameter |
| `Model/FieldFl` | `gaussianfield.cpp` simulation, `fftcovgrid.*`, `fft.hpp`, `fftgrid2d.hpp`, `fftgrid3d.hpp` with every operation rounded; FFTW is a parameter with a small error (`Spec/FftwNear`) |
| `Model/Ieee` | rounding to IEEE `float` and `double` (nearest, ties to even, subnormals; no overflow) |
| `Model/FftSize` | `fft.cpp` FindNewSizeWithPadding, with rounding |
| `Model/Variogram` | `variogram.{hpp,cpp}`, `variogramtypes.hpp`, `gaussfft.cpp` CreateVariogram |
| `Model/Padding` | `gaussianfield.cpp` padding functions, with rounding; `gaussfft.cpp` FindGridSizeAfterPadding |
| `Model/CovGrid` | `fftcovgrid.{hpp,cpp}` |
| `Model/Fft` | `fft.hpp`, `fftgrid2d.hpp`, `fftgrid3d.hpp`, FFTW interface |
| `Model/Dsfmt`, `Model/Random` | dSFMT, `random.*`, `randomgenerator.*` |
| `Model/Distr` | `random/uniform.*`, `triangular.*`, `splituniform.*`, `fractal.*`, `delta.*`, `generaldiscrete.*`, `distribution.hpp` |
| `Model/DistrFl` | `uniform.hpp`, `generaldiscrete.*` with every operation rounded |
| `Model/DistrInt` | `random/binomial.*`, `poisson.*` (binomial coefficients and incomplete gamma function are arguments; those of the code are in `Model/Gamma`) |
| `Model/Field`, `Model/Api` | `gaussianfield.cpp` simulation, `gaussfft.cpp` dispatch, the Python module as a state machine |
| `Model/Threads` | threads that draw from one generator |
| `Model/Empirical` | gaussianfft/__init__.py, `EmpiricalVariogram` |
| `Model/Empirical2` | `EmpiricalVariogram2` |
| `Model/PadAnalyzer` | the convergence analysis of `EmpiricalVariogram`, `PaddingAnalyzer` |
| `Model/Grid` | `grid.hpp`, `grid2d.hpp` |
| `Model/Surface` | `surface/surface.hpp` (interface, constant surface), `regularsurface.hpp`, `regularsurfacerotated.hpp` |
| `Model/CovLookup` | `covgrid2d.{hpp,cpp}` |
| `Model/TextIO` | `fileio.{hpp,cpp}` text streams, input and output of numbers |
| `Model/SurfaceIO` | `surfaceio.{hpp,cpp}` Irap classic format |
| `Model/Statistics` | `statistics/statistics.hpp` |
| `Model/Kriging` | `statistics/kriging.cpp` Krig1D, `nrlib_flens.cpp` Cholesky (as LAPACK documents it) |
| `Model/Krig2D` | `statistics/kriging.cpp` Krig2D for data at nodes, with its blocks; `nodalkrigingdata2d.{hpp,cpp}` |
| `Model/Krig2DCont` | `statistics/kriging.cpp` Krig2D for data anywhere; `continuouskrigingdata2d.{hpp,cpp}` |
| `Model/Interpolation` | `geometry/interpolation.cpp` |
| `Model/NormalDistr` | `random/normal.{hpp,cpp}`, `random/lognormal.{hpp,cpp}`; `IsEqual`, `IsZero` of `math/mathutility.hpp`; the error functions as exact |
| `Model/Beta` | `random/beta.{hpp,cpp}`, `random/betawithendmass.{hpp,cpp}`, except the default constructors |
| `Model/Extrapolator` | `gaussianfft/util/resource_extrapolator.py`; `numpy.linalg.lstsq` for one unknown as documented |
| `Model/Geometry` | `geometry/point.*`, `line.*`, `plane.*`, `triangle.*` without input and output |
| `Model/Box` | `geometry/box.*` |
| `Model/Transformation` | `geometry/transformation.*` |
| `Model/Polygon` | `geometry/polygon.*` without `MinEnclosingRectangle` |
| `Model/Bilinear` | `geometry/bilinearsurface.*` without output |
| `Model/Volume` | `volume/volume.*` without files |
| `Model/PostNormal` | `statistics/posteriormultinormal.cpp` |
| `Model/MultiNormal` | `statistics/multinormal.{hpp,cpp}`; `CholeskyFactorize`, `CholeskyDeFactorize` of `flens/nrlib_flens.cpp` |
| `Model/LinAlg` | `FindLargestElement`, `IdentityMatrix`, `Sort3x3` of `flens/nrlib_flens.cpp` |
| `Model/FileIO`, `Model/Strings` | byte I/O, IBM floats, string tools |
| `Model/GridMore` | `grid/grid4d.hpp`, `grid/grid2dgeneral.hpp`, extremes and averages of `grid2d.hpp` and `grid.hpp` (`grid5d.hpp` does not compile: a semicolon is missing in line 115) |
| `Model/StormGrid` | cells, values between layers and thickness of `stormgrid/stormcontgrid.{hpp,cpp}` |
| `Model/Well` | `well/well.{hpp,cpp}` without files, `well/welloperations.hpp` |
| `Model/Gamma` | `random/gamma.*`, `random/chisquared.*` |
| `Model/Wavelet` | `wavelet/wavelet.*` |
| `Model/EclipseFault` | `eclipsegrid/eclipsefault.*`, `eclipsegrid/eclipsefaceindexer.*`, the faces in `eclipsegrid/eclipsetools.hpp`, `ReadFaults` and `WriteFaults` of `eclipsegrid/eclipsegrid.cpp` |
| `Model/SegyGeometry` | `segy/segygeometry.*` without the constructor from traces |
| `Model/SegySetup` | `segy/segygeometry.*`: `SetupGeometry`, `SetupGeometrySingleTrace`, `FindILXLGeometry` with given lines |
| `Model/SegyTraces` | `segy/segygeometry.*`: the constructor from traces, without regularization and conversion of coordinates |
| `Model/EclipseGeometry` | `eclipsegrid/eclipsegeometry.*`: numbers of cells and corners, pillars, points in cells, local coordinates, finding a cell, active cells, pillars and layers |
| `Model/TrendKit` | `src/nrlib/trend/trendkit.cpp` (constant trend, sorting and searching, one- and two-dimensional interpolation, resampling, bins and regression in one dimension, variance) |
| `Model/Trend` | `src/nrlib/trend/trend.cpp` (values, truncation, means, scaling and checks of trends) |
| `Model/SegyValues` | `src/nrlib/segy/segytrace.cpp` (samples), `src/nrlib/segy/segy.cpp` (values, stored traces, limits of samples, table after writing) |
| `Model/TraceHeader` | `src/nrlib/segy/traceheader.cpp` (formats, check, read, write, scale, coordinates) |
| `Model/CommonHeaders` | `src/nrlib/segy/commonheaders.cpp` |
| `Model/LogKit` | `src/nrlib/iotools/logkit.{hpp,cpp}`, `logstream.{hpp,cpp}` without files and progress |
| `Model/SegyCheck` | `src/nrlib/segy/segy.cpp` lines 1611-1765, 1853-1927 (checks of trace headers and of line numbers) |
| `Model/SegyCompare` | `src/nrlib/segy/segy.cpp` lines 147-210 (`CompareTraces`) |
| `Spec/*` | small independent specifications (7-smooth, DFT, minimum image, dSFMT recursion, byte order, ...) |
| `Lemmas/*` | helper lemmas |
| `Props/*` | the property theorems, one file per group, each with non-vacuity examples |

## 3. What is modelled and what is not

Modelled, function by function: everything that the Python functions `seed`, `variogram`,
`Variogram.corr`, `simulation_size`, `simulate` and `advanced.simulate` execute, down to FFTW and to
the bits of the random generator; the parts of the library beside it that are listed in the table
above.

Not modelled:

* pybind11 and NumPy: argument conversion, reference counts, the copy of the result.  The result is
  the list of numbers handed to NumPy, with its shape.
* Rounding (except in sizes and padding and in the correlation functions), overflow and underflow of floating-point arithmetic; `NaN` and infinities as values.
* FFTW itself; its planner, its threads and its memory.
* The text of exceptions.  Running out of memory.
* The rest of nrlib: surface files in other formats than Irap classic, files of wells, files of traces (except the parts above), eclipse grids (except faults and the parts of the geometry above), files of wavelets, files of storm grids, `Polygon::MinEnclosingRectangle`,
  trends (except the parts above), fonts, time keeping, the progress shown by the log.  None of it is reached from the Python module.
* Build scripts and tests.
* Memory models weaker than sequential consistency (`Model/Threads`); a data race is formally
  undefined behaviour already.

## 4. Plan and result per property

| id | how | status | result |
|---|---|---|---|
| C01 Output length is exactly the requested number of cells | model of the dispatch and of the three simulate functions; theorem: result is `ok` and its length is as stated | proved | Unconditional on arguments and state: whenever the call returns. |
| C02 Multi-dimensional output is Fortran ordered and is the low corner of the padded field | model GetRealGrid and the flat storage; theorem: element `i+nx*(j+ny*k)` is the padded field's cell `(i,j,k)` | proved |  |
| C03 Simulated values are a fixed linear combination of the drawn normals | theorem: field of `a•w+b•w'` is `a•field w + b•field w'` | proved | Each returned value is an explicit finite linear combination of the normal numbers drawn for the call, with coefficients that do not depend on the draws. Doubles are modelled as reals and the FFT library by its laws (Fftw.Laws), for which a reference implementation is given. |
| C04 The field has exactly the periodic version of the requested covariance | Fourier analysis on `ZMod n` (products for 2D/3D): `A Aᵀ` equals the covariance grid at the index difference | proved | In two and three dimensions the covariance is the mean of the values at the lag and at the opposite lag; the two are equal unless the lag is half the padded grid in some direction and the variogram is rotated (lemmas wrapCov2_neg, wrapCov3_neg, wrapCov_neg_unrotated). |
| C05 Clipping negative spectrum never lowers the variance | same with the positive part of the spectrum; diagonal compared with Parseval at lag 0 | proved | Clipping does occur: a one-dimensional Gaussian variogram has variance above its sill. |
| C06 Stationarity | corollary of C05: kernel of `A Aᵀ` depends on the difference only | proved | The law is stated as a function of the index difference. |
| C07 Constant variogram gives a constant field | constant covariance has a single nonzero frequency; compute the field | proved |  |
| C08 One-dimensional exponential and spherical fields are never clipped | convex sequences on a cycle have non-negative cosine sums (summation by parts); spherical/exponential are convex | proved |  |
| C09 Default padding removes wrap-around for the spherical variogram | padding bound of C18 + zero beyond range, combined with C04/C08 | partial | False as stated for rotated variograms: in 1D the padding uses the main range even when the azimuth makes the range along the line longer than the rule allows for, and in 3D a dip makes the vertical padding too short (both with witnesses). Proved in 2D for every azimuth without dip, in 1D and 3D under the stated condition on the angles. |
| C10 Reproducibility from a seed | API state machine; two states after `seed(s)` are equal, hence all traces | proved |  |
| C100 Spline interpolation in one dimension | elimination never has a zero pivot; the solution as truncated cubes; orthogonality by parts | partial | Proved for places less than 1e10 above the point before them. Beyond that the code violates the statement: the first cubic is used and the extrapolation value is not (spline_far, spline_violation). With one or two points the behaviour is undefined, with none it throws (spline_few); two equal places give a result that is not finite. |
| C101 The normal distribution | the error function written by the Gaussian integral, then the law of a shifted and scaled number | proved | The complementary error function and its inverse are taken as exact. For p = 0 and 1, which the assertion in Quantile admits, both quantile functions throw: normal_quantile_ends. |
| C102 Potentials of the normal distribution | conditional laws as measures with a density | partial | Proved; for two limits if the probability between them is more than 1e-6. Below that the code violates the statement, since it takes the width of the interval for its probability: normal_potential_two_violation. |
| C103 The inverse of the distribution function by search | a potential argument for the mixture of bisection and Newton steps in a bracket where the function is concave or convex | partial | Proved if y is more than 1e-6 away from the distribution function at mean + c std_dev, c = -10, -1, 0, 1, 10 (phiInverse_close). Else only the distribution function is met within 1e-6. The code violates the statement in the tail: from 1 - 1e-6 on the result is mean + 10 std_dev, where the quantile is less than mean + 5 std_dev (phiInverse_tail_violation). |
| C104 Draws from truncated normal distributions | induction on the attempts left; Mills' inequality for the way out; the first attempt as a quantile | partial | The limits and failures are proved. The law: for a lower limit the draw is, up to the errors of PhiInverse (C103), the quantile of the truncated law at the uniform number, if that is not close to the limit (drawLower_quantile_partial). The code violates the statement on the law: limits that leave a probability of at most 1e-6 give a constant (drawLower_tail_violation, drawTwoSided_tail_violation), and uniform numbers close to 1 all give mean + 10 std_dev (drawLower_atom_violation). |
| C105 The lognormal distribution | change of variables | partial | Proved for new objects with parameters. The code violates the statement after SetParameters: draws are those of the parameters before the call (logNormal_setParameters_violation); an object of the default constructor draws from the law with parameters 0 and 1 but has quantiles 1 only, and after SetParameters it draws ones only (logNormal_default_violation). |
| C106 The beta distribution | loop invariants for the tables; the distribution function as a piecewise linear function; dominated convergence for the limit | partial | Proved for Cdf within 2^31 cells of min_val, for Quantile at the multiples of 1/nx, and up to an error of 1/nx in probability for Quantile and draws. The code violates the rest: Pdf is the density moved by half a cell to the right (its integral is in beta_pdf, an example with 3/4 in beta_pdf_violation), between multiples of 1/nx Quantile is linear in p and not the inverse of Cdf (beta_quantile_violation), and far to the right the number of the cell overflows an int (beta_far_violation). |
| C107 The beta distribution with mass at the ends | the quantile function composed of three pieces, and the law of its value at a uniform number | partial | Proved for Cdf at all arguments, for the probabilities of both ends, and for Quantile and draws between the ends up to (1 - p_min - p_max)/nx in probability. The code violates the rest: see C106 for Quantile and Pdf between the ends; Pdf is infinite in the ends also without mass (betaEnd_pdf_violation); the assertions admit masses of more than 1 together, for which Cdf decreases (betaEnd_mass_violation). |
| C108 Measuring the time of simulations | induction on the sizes; the safety of simulate (C43); completing the square for the slope | proved | The least-squares solver of NumPy is modelled by its documentation (the solution of least norm). extrapolate_ignores: the argument ex_nmax has no effect. extrapolate_throws: step 0, smallest size 1 and an empty range are rejected, the latter two by a division by zero and by an index error. |
| C109 Projections on lines, rays and segments | completing the square in the parameter of the projection; a common point of parallel lines puts an end of one in the other | partial | Violated in two places. findDistanceAndSide_violation: the side is wrong for points whose projection is at or after the second point of the line; findDistanceAndSide_partial: it is right for the others. isParallel_violation: with the default limit 0, IsParallel is false for all pairs of lines. |
| C11 seed() reports the seed in force | invariant over API call lists | proved |  |
| C110 The distance of two lines | the two stages give parameters where neither partial derivative of the squared distance goes down in an admissible direction; the squared distance is convex | partial | findNearest_partial: correct if the line given as argument has two different points, with all combinations of ends; the line itself may be a point, and the lines may be parallel. Violated if the argument is a segment of length zero (findNearest_degenerate, findNearest_violation): the answer is the distance to the first point of the line. |
| C111 Crossing lines seen from above | Cramer's rule gives the one common point of the straight lines; its parameters decide | partial | intersectXY_partial: correct for segments that are not parallel; intersectXY_infinite: correct for a whole line and a segment with the argument for that. Violated for parallel segments that overlap, and for rays and whole lines, which are taken for segments. |
| C112 Planes | Pythagoras; the common points of two planes solve two linear equations | proved | The comment in plane.hpp that FindIntersection(plane) does not work for horizontal planes is out of date: plane_findLine_spec has no such exception. Parallel planes and lines are reported as having no common point (plane_findIntersection_parallel), or as a line of one point, the origin (plane_findLine_parallel). |
| C113 Triangles | a point of the plane has unique weights; from any point of the triangle one can go, along with a point of the line and without increasing the distance, to an edge (intermediate value theorem) | partial | FindIntersection is proved. FindNearestPoint is correct for lines without ends (findNearestPoint_partial); for rays and segments it gives the distance to the edges if there is no common point (findNearestPoint_edges), which is wrong for a segment that ends above the triangle (findNearestPoint_violation). |
| C114 Boxes | turning keeps distances; in the coordinates of the box the nearest point is found coordinate by coordinate; each side has at most one common point with a line that is not parallel to it, and a line meets a box in an interval | partial | Distances, corners and IsInside are proved. findIntersections_partial: the list holds exactly the points of the line on sides that it is not parallel to; findIntersections_two: no three of them are different. Violated (findIntersections_violation): a line through edges or corners is returned once for each side there, so that the diagonal of a cube gives six points, where the documentation promises none, one or two. |
| C115 Transformations | induction over the calls; invariant: the last row of the matrix is (0, 0, 0, 1) | proved | The operations are described coordinate by coordinate in Spec/Transformation. |
| C116 Points inside a polygon | in the integers modulo two: when the point moves up from the height of some corners, the count for an edge changes by one for each of its ends at that height and on the right, and around the polygon each corner counts twice; connectedness | proved | The first four statements determine the answer for each point that is not on an edge. Nothing is claimed for points of edges. |
| C117 Extent, orientation and convexity of polygons | invariants of the loops; the sum of the program and the shoelace formula differ in one term; a round of MakeConvex that deletes nothing is repeated for ever | partial | XYExtent is proved. IsCounterclockwise leaves out the edge from the last corner to the first: right if that term is zero, for example if the first corner is repeated at the end (isCounterclockwise_partial), otherwise wrong (isCounterclockwise_violation). IsConvex accepts strictly convex polygons if the orientation is recognised (isConvex_partial), rejects a triangle and accepts a star (isConvex_violation). MakeConvex deletes a corner of a triangle and does not end for a quadrangle; if it ends, IsConvex is true of the result (makeConvex_partial). |
| C118 Lengths along polygons and positions of points | invariants of the loops | partial | FindPointPosition is proved. GetCircumferenceXY leaves out the edge before the last corner and counts heights: 3 for the unit square. DistanceBetweenPointsXY inherits this: 0 for the first and the last corner of the unit square; it is right if the way is short (distanceBetweenXY_partial). |
| C119 Tangents to a polygon | the directions to the corners are ordered since the point can be separated from the hull; invariant of the loop: the corner found or the current corner is outermost among those seen, and the corner found is if the directions turn back | proved |  |
| C12 An automatically seeded run can be replayed | state after auto-seeding equals state after `seed(r)` | proved |  |
| C120 Bilinear surfaces | the two equations of the line, eliminated; the derivative of the quadratic polynomial is the determinant of the partial derivatives and the line times its vertical component; an estimate of the second order for IsAbove | partial | GetPoint is proved. For lines that are not horizontal and surfaces with a clear twist, FindIntersections finds all points where the line passes through the surface, and gives only points of the line and of the surface extended by 5 and 0.1 per cent. It finds nothing for horizontal lines, ignores the ends of segments, reports points outside, and treats a twist that is small relative to the coordinates of the first corner as zero. IsAbove is right near surfaces with a twist out of the plane, never true for plane quadrangles that are not parallelograms, and uses a threshold that is wrong for small parallelograms. |
| C121 Volumes: the area, its coordinates, inside tests and covering surfaces | a turned rectangle given by its parametrisation; rotation of the plane; corners bound linear functions | partial | All proved except IsInside(x, y, z) where a surface is not defined: the missing value (such as -999) is taken for a height, so that a point outside of the top is below it. A surface that is turned is accepted by its bounding box (C82). |
| C122 Volumes: height, extremes, setters and copies | invariants of the double loops over the sample points; case analysis of the setters | partial | The height is the greatest thickness at 100 times 100 sample points, which leave out the far sides (0.99 for a wedge of thickness 1). The extremes are those at the centres of the cells, never at the sides. A setter that throws has changed the volume and left the old height. SetSurfaces with the volume's own surfaces uses deleted objects. The copy constructor forgets the tolerance, which assignment keeps. FindCenter ignores the angle: the centre may be outside. |
| C123 Conditional normal distributions | the weights solve the normal equations; residuals are uncorrelated with the observations, hence independent as they are jointly normal | proved | LAPACK and BLAS by their documentation. Such normal vectors exist for all positive semidefinite covariances (jointNormal_exists). |
| C124 Secondary observations, and observations that are nearly the same | invariants of three nested loops, one of which runs over a list that grows; then as C123 | partial | Proved for observations with the same local correlation and where no two are nearly the same. False in general: after observations were merged the local correlations are those of other observations, so that a secondary observation may count as primary; and a primary observation at the place of an earlier secondary one is dropped. Two observations that are nearly the same may be in different chains. |
| C125 Cholesky factors | existence from the LDL decomposition; uniqueness by induction over the rows; invariants of the copying loops | proved | LAPACK's potrf by its documentation: it succeeds if there is such a factor. That there is one exactly for positive definite matrices, and only one, is proved. |
| C126 Draws of normal vectors | moments of linear combinations; the diagonal of the product of the symmetric matrix with itself | partial | The draws are normal with the right expectation. The covariances are right exactly if the covariance matrix is diagonal: the code multiplies by the symmetric matrix that holds the factor instead of by the factor, so every variance is too large by the squares of the rest of its row. SetParameters does not change the covariances of the draws. |
| C127 The potential of a normal vector | three nested loops as sums; the scaled coordinates along the eigenvectors are independent standard normal; change of variables | proved | The constant for log(2 pi) is taken as exact; LAPACK's syev by its documentation. The covariance matrix is not checked: with an even number of negative eigenvalues a number is returned (potential_violation). |
| C128 Sorting eigenvalues, the largest element and the identity matrix | invariants of the loops; the three chosen indices are distinct | partial | Sort3x3 is right if all eigenvalues exceed -100000; if one does not, the code reads a column of index -1, outside the memory of the matrix. |
| C129 Four-dimensional grids, windows of grids, and extremes of grids | mixed radix representation; induction over the values | partial | Violated in three places. GetIJKL is right only for cells with fourth index 0: the fourth index is always 0 and the third too large. Grid2DGeneral::Swap leaves the bounds, so that valid cells are read outside the memory. Grid2D::FindMin and FindMax give the greatest number (negated for FindMax) if all values are missing. |
| C13 One- and two-dimensional simulation uses exactly one number of the global stream | model of global stream as dSFMT state; one draw per call, induction over calls | proved |  |
| C130 Cells of grids in volumes | coordinates along the sides; floor of quotients | partial | Violated in two places. A point on the bottom surface is given the layer nk, which is not there, and FindIndex then fails in an assertion. A point one cell or more before the first side is converted to an unsigned number before it is compared, which has no defined value, so that the exception is not guaranteed. |
| C131 Values between the layers of grids in volumes | case distinction by layers; floor of the relative depth | partial | Violated for GetValueClosestInZ: in the half of each layer below its centre it continues the line through this layer and the one before, so that the value may lie outside the range of all values; on and below the bottom it reads a layer that is not there; and the code for missing values is averaged like a value. |
| C132 The logs of wells | maps as sorted lists; invariant that names are in strict order | partial | Violated in two places. Values that are not there are read outside the memory (or stop the program in an assertion) instead of being missing. MakeLogsUppercase loses a log if two names differ only in case. Moreover a new well has no value for the number of its data and for being deviated. |
| C133 Blocking of wells in grids | nested loop invariants for the sums and counters of all logs and cells | partial | Holds for continuous logs. Violated for discrete logs: the value is the integer part of the average of the codes, which the well may not have (facies 1 and 4 give facies 2); it is right where the log is constant in the cell. Violated for codes for missing values other than -999: the blocked well takes -999 for missing but holds the code of the first well. A well without values is read outside the memory. |
| C134 The logarithm of the gamma function, and binomial coefficients | the error of the Lanczos sum as a telescoping series, bounded by polynomial inequalities checked in the kernel | proved | For real numbers: the rounding of doubles comes on top. |
| C135 The incomplete gamma function | error of a series by its remainder, convergents of the continued fraction as solutions of the three-term recurrence of the tail integrals | partial | Proved for a < 100. Violated for a >= 100: where the exponential function of doubles underflows above a, the result is 0 instead of 1, e.g. gammp(100, 2000). For a >= 100 it is otherwise only proved that there is a result; the accuracy of the quadrature is not. |
| C136 The chi-squared distribution | substitution in the integral, C134 and C135, and an invariant of the iteration of the quantile | partial | Pdf and Cdf proved. Violated: Pdf(0) with two degrees of freedom is not a number instead of one half; Quantile(1) is finite. Quantile always gives a number that is not negative, 0 only for 0; that it is the inverse of Cdf is not proved. |
| C137 Wavelets: Ricker, resampling and resizing | the sums and the index arithmetic for every length | partial | Violated in two places. Resize to a smaller length writes before the memory of the new samples. Resample refuses multiples that are rounded down, e.g. from 0.1 to 0.3. |
| C138 The faces of a fault, and where fault segments cross | induction over rows, layers, boxes and segments; lines as sets of real points | partial | Going through a fault is undefined if it has no segments, or if a segment goes from a greater to a smaller cell number. |
| C139 Files of faults | the words of each line, and induction over segments and faults in the order of their names | partial | Proved for faults with segments; those without are lost. Violated: the reader never returns if the file ends before the slash; names without quotes lose two characters; what is written of names with white space is refused, as are comments without a blank after the dashes. |
| C14 Different seeds give different streams | negation witness for 64-bit; injectivity of the 32-bit seeding | partial | Refuted as stated for seeds that agree modulo 2^32; proved for seeds that differ modulo 2^32. |
| C140 Cells, lines and points of a seismic cube | the lines as affine functions of the place among the cells | partial | Points of lines are proved if no small quotient of steps is taken for 0. Violated in three places: FindIndex of lines accepts the line after the last one and lines between those that are there; it is undefined for points far outside; the point of lines that are not perpendicular is wrong if the in-lines are parallel to an axis. |
| C141 How a seismic cube is set up | the rounded lines at the middles of three cells | partial | Proved for lines that are not negative. Violated in three places: the cube made from a grid exchanges the axes; negative lines are off by one; lines numbered downwards along an axis with one cell are taken to be numbered upwards. |
| C142 Parts of a seismic cube | remainders of whole numbers, and affine functions on rectangles | partial | Violated in three places: if the first line is moved up beyond the last one, the part has two lines after those asked for; a step of 0 is divided by; a last line before the first is not refused, and gives as many cells as a size_t can count. |
| C143 The frame of a seismic cube from its lines | the four corners, and the choice among them, split into flat, steep and oblique cubes | partial | The lines are right for all steps that are not parallel; the cells are proved for perpendicular ones and at least two lines of either kind. Violated for a single trace: the line of one kind is changed along the axis of the other. |
| C144 A seismic cube from its traces | folds over the traces, and the triangle inequality for the chosen traces | partial | Proved if the first trace is in a corner and no small quotient of steps is taken for 0. Violated in three places: with the first trace in the middle of a square, with a smaller cross-line after one that repeats the first, and with the in-lines of a single cross-line in descending order, the constructor divides by zero. |
| C145 Cells, corners and pillars of a corner-point grid | division with remainder in mixed radix; an invariant of the loops over the pillars | proved | eclipse_coord is about vectors of the right length; a vector that is too short is read beyond its end (eclipse_coord_violation). |
| C146 Points inside the cells of a corner-point grid | polynomial identities in the coordinates | partial | Holds on the four sides of a cell. Violated inside: three coefficients of the polynomial in u and v are wrong, so that the depth and y are off by up to a sixteenth of a difference along one side, in every box too. |
| C147 Active cells, layers and pillars of a corner-point grid | induction over layers and columns; sums over pairs regrouped | proved | With no pair of active neighbours the mean distance is 0 divided by 0. |
| C148 The cell of a point in a corner-point grid | the Jacobian is positive, so only one root is in the unit interval; an invariant of the halving | partial | Proved for at least two layers, each with a thickness. Violated: with one layer the search for a point inside of it never ends; where a line of constant v is parallel to the y axis in a column that is no parallelogram, u is 0; a layer without thickness is found in place of the next; a pillar of no height is divided by. |
| C149 Searching and sorting of trend data | invariants of the halving; uniqueness of the sorted list | partial | Proved for vectors that are not empty; windows for different elements. Violated: an empty vector is read in the test for sorting; with equal elements the window leaves some of them out. |
| C15 simulate is advanced.simulate with default settings | unfold plus threshold lemma of C30 | proved |  |
| C150 Interpolation between the numbers of a trend | the floor gives the cell; an invariant over both lists | partial | Proved for places at least 1e-5 from the ends, and for new places from the first place on and before the last. Violated: in one dimension missing neighbours are used as numbers; the last place of the trend gets no number in resampling; if one new place is before the trend, none gets a number. |
| C151 Means, variances and bins of trend data | induction over the logs and observations | partial | Proved for logs of one length, 2 to 46341 numbers, and observations not within 1e-5 inside the ends. Violated: longer logs are cut, shorter ones read beyond their end, and an empty first log hides the others; 46342 numbers overflow an int; one number is divided by zero; just inside the ends a part of an observation is lost. |
| C152 Local linear regression | normal equations of a penalised loss; exact formula for the bias | partial | Proved: the estimate minimises the weighted squared distances plus 1e-4 times the sum of the squared places times the square of the slope; constants are reproduced. Violated: that penalty depends on the origin, so a line is lost far from it; of observations at one place just outside the window only the last is used. |
| C153 Values of trends | a common formula for interpolation with the place moved into the range; cases | partial | Proved in one and two dimensions; bounds in all. Violated in three dimensions: the weights of the layers are exchanged, so that the value at the place of a layer is the one of the next layer. |
| C154 Limits, means, scaling and signs of trends | induction over the numbers | partial | Proved for two and three dimensions; limits and truncation in all. Violated in one dimension: the first number is left out of the mean and of the check, so that scaling misses the mean asked for by the factor 1 + first / sum of the others. |
| C155 Samples of traces | invariants of the loops; induction over the table | partial | Proved, except for copies. Violated: copying a trace made of numbers reads a header behind a null pointer. |
| C156 Values between the samples of a cube | a formula for the interpolation with given samples; cases at the sides | partial | Proved except in the first and the last column. Violated there: the neighbour is taken from the row before or after. Rounding and the search for the lateral cell are not in this model. |
| C157 The table of traces after writing | form of a sorted table; invariant of the loop: moved, waiting, and nothing else | proved | Proved. |
| C158 Samples stored and read between surfaces | invariants of the three loops; inequalities of the floor | partial | Proved for a surface in the cube with data that fit, and for a lower surface below the start of the cube. Violated otherwise: data that do not fit are written beyond the trace, a surface above the cube gives a negative count converted to size_t, and with both surfaces above the cube the whole trace is read without an error. |
| C159 Headers of traces | fields that share no byte are written independently; bounds of truncation | partial | Proved for formats with fields apart, which the named ones are, coefficients with a scale of their own, coordinates that fit an int and an offset that is set where the format has one. Violated: the check accepts fields that share bytes; coordinates are truncated, not rounded; a coefficient of one leaves the old scale; the offset of the format SIP is not set when all traces are written. |
| C16 Explicit padding is honoured | theorem on total sizes from C20 | proved |  |
| C160 Headers of files of traces | invariant of the loops over the columns; fields that share no byte; a finite table for the codes | partial | Proved for texts without the character 128, fewer than 32768 samples and steps below 32.768. Violated: the character 128 is read beyond the table; the lines of the empty text are longer than 80 bytes and begin with another byte, as the source is in the repository; the number of samples is cut to 16 bits; a longer step is undefined behaviour. |
| C161 The log | bits of levels by induction; a commutation of adding and sending by induction over the messages; an invariant for the screen | partial | Proved for levels up to 64 and phases that are not negative. Violated: after the stream of the screen is removed, setting the screen again deletes another stream or writes outside of the streams; a stream for one phase has the messages of all phases from the thousandth on; a set of levels as a level and long formatted texts write outside of memory. |
| C162 The control of trace headers | the solution of the two equations, by algebra, for all positions of the three traces | partial | Proved when the first two traces are on one inline, or the first and third on one crossline, and the second is on another crossline than the first. Violated otherwise: a denominator has the wrong sign, so that wrong steps are found whenever the inlines have a step in the coordinate; if the first two traces are on one crossline there is a division by zero. How the third and fourth trace are chosen is not in the model. |
| C163 Numbers of inlines and crosslines that do not match | invariants of the table of steps; uniqueness of sorted lists; induction over progressions | partial | All but the last sentence is proved. Violated: the lines on both sides of a missing line match the step and are set undefined; with a wrong number between others, a neighbour is lost with it. |
| C164 The comparison of two traces | an equivalence for the remainder; induction over the search | partial | Proved but for the existence of a result, which is proved when the crosslines differ by more than the inlines: for two traces across a cell of a grid with steps of 25, the root of a negative number is converted to an integer, which is undefined behaviour. |
| C17 simulation_size never reports less than the grid and never more than is simulated | arithmetic on the padding model plus C20 | proved | Proved for steps and ranges whose padding fits in an int; the last theorem shows that it fails for a negative step. |
| C18 Default padding covers the range | arithmetic with truncation | partial | Modelled with rounding. The padding is longer than the range and the padded grid covers the (rounded) multiple; it is the least padding for the rounded quotients, and at most one cell off the exact least padding. Exact minimality is refuted with a witness (rounding of range/step). |
| C19 simulation_size and simulate agree on the dimension | `_partial` theorem under sign condition + witness of violation | partial | Refuted for a negative step in a used direction; proved for non-negative steps. |
| C20 FFT grid size is the least 7-smooth size | loop invariant over the four nested loops; least element theorem; witness for n = 1 | partial | Modelled with rounding and an inexact logarithm. Least 7-smooth (even) size proved up to 2^24 (double logarithms) or 2^17 (float); false for even requests at n=1, for 2^24+1 (float conversion of the size) and for 2^22+1 with float logarithms (witnesses); formally undefined from 65536 on a platform where out-of-range double-to-size_t conversion is undefined (witness). |
| C21 Variogram factory defaults | decision logic; witness for 0 | partial | defaults for negative ranges, degree conversion, unit sill proved; "0 or negative" replacement is false for 0 (witness) |
| C22 Variogram type names | decision logic over all strings, upper-casing per character | partial | proved for ASCII strings; for other strings toupper gets a negative char (undefined behaviour, proved in the model) |
| C23 Correlation is one at lag zero and bounded by one | real analysis on the eight 1D correlation functions and the quadratic form | proved | power>0 is necessary: witness for power=0 |
| C24 Correlation is symmetric | real analysis on the eight 1D correlation functions and the quadratic form | proved |  |
| C25 Correlation decreases along rays | real analysis on the eight 1D correlation functions and the quadratic form | proved |  |
| C26 Meaning of the range | real analysis on the eight 1D correlation functions and the quadratic form | proved |  |
| C27 Correlation with fewer arguments is the restriction | real analysis on the eight 1D correlation functions and the quadratic form | proved |  |
| C28 Anisotropy is the isotropic model in rotated scaled coordinates | algebraic identity between cached factors and the rotated frame | proved |  |
| C29 Rotation invariances | algebraic identity between cached factors and the rotated frame | proved |  |
| C30 Smoothing is off at values above 0.99999 | real powers; threshold | proved |  |
| C31 Smoothing multiplies the covariance by a Gaussian kernel | real powers; threshold | proved | the extents are those of the range ellipsoid up to 0.0008 of the largest range: the source uses 3.14 for pi |
| C32 The covariance grid holds the minimum-image lag in every cell | loop invariants of the covariance grid loops, all three dimensions | proved |  |
| C33 The covariance grid is point symmetric | from C32; witness with azimuth 45 degrees and even size | partial | always in 1D, without rotation, and away from half-grid lines; false on the half-grid line of an even 2D grid with rotated anisotropy (witness) |
| C34 The inverse transform is only given Hermitian spectra | proof that each c2r argument is half of a Hermitian array | proved |  |
| C35 Forward and inverse FFT are mutual inverses | DFT inversion and convolution theorem via the FFTW laws | proved | FFTW enters through the structure Fftw.Laws (definition of the unnormalised r2c/c2r DFT), shown satisfiable by fftw_laws_inhabited. Exact real arithmetic. |
| C36 Convolve computes the circular convolution | DFT inversion and convolution theorem via the FFTW laws | proved | Convolve on 2D and 3D grids, same FFTW laws. Exact real arithmetic. |
| C37 Uniform numbers stay in their documented interval | word-level model, invariants over draws, bit-vector identities | proved | For all seeds, all numbers of draws and all interleavings of the draw functions; also from every admissible state. The draws are shown to be those of the published recursion. |
| C38 Block generation equals one-at-a-time generation | word-level model, invariants over draws, bit-vector identities | partial | Proved for every admissible state in which the array is used up (as after seeding or after a multiple of 382 draws) and every admissible length. Refuted otherwise: if the array is not used up the number drawn after the block is one of the numbers of the block. |
| C39 The SIMD and the portable generator agree | word-level model, invariants over draws, bit-vector identities | proved |  |
| C40 Seeding always yields an admissible generator state | word-level model, invariants over draws, bit-vector identities | proved | Both seeding functions; for both the whole state is given by an independent description of the published procedure. |
| C41 Global and object generators are the same generator | word-level model, invariants over draws, bit-vector identities | proved | All finite sequences of calls (uniform, open uniform, integer, normal, reported seed, reseeding), including the ways they can fail. |
| C42 Normal numbers: range and termination conditions of the sampler | sampler over an arbitrary uniform stream; loops that stop at the first accepted pair | proved | The value is determined from the uniform numbers, the loops stop at the first accepted pair; the NaN is shown on an admissible state. Also: no value exceeds 12.27. Exact real arithmetic. |
| C43 No undefined behaviour for valid arguments | collected from the `= ok` parts; witnesses outside the precondition | partial | No undefined behaviour and no exception for valid arguments in every reachable state; the refutations outside the precondition are proved too. Not excluded: the division by zero inside the tail branch of the normal sampler (see C42), which would need a statement about which pairs of words a seeded stream contains. |
| C44 Concurrent calls behave like some sequential order | two-thread small-step model of the unsynchronised draw; witness schedule; positive theorem for disjoint objects | partial | Refuted with witnesses, in a sequentially consistent model with single accesses as steps (renewal of the state as one step). Two overlapping simulate calls, in any dimension, can each return what they would return if called first; after seed(1) the same two calls one after the other return different fields. Proved for calls that do not overlap and for separate generators. advancedSimulate_words shows that a call with a seed in force is a function of the words it draws. |
| C45 Two-argument-grid convenience simulation repeats itself | model of the overload | proved |  |
| C46 Grid index and coordinates are inverse | arithmetic | proved |  |
| C47 Variogram setters keep the object valid | object model with setters, invariant over setter sequences | proved |  |
| C48 Variogram value and covariance are consistent | object model with setters, invariant over setter sequences | proved |  |
| C49 Precomputed 2D covariance lookup | table model with checked indices | proved | Floats exact. The boundary lag ny is answered with another lag's value or past the table, as the statement says. |
| C50 Binary readers invert binary writers | byte lists and bit vectors | proved | All values, both byte orders, single numbers and arrays, machines of either byte order. Failures of the medium other than end of file are not modelled. Empty arrays are undefined behaviour (emptyArray_ub). |
| C51 IBM float conversion | byte lists and bit vectors | proved | Claim holds for normal and normalised numbers in range. Outside: denormal, infinite, tiny, too large and unnormalised numbers are converted wrongly, with witnesses. |
| C52 String utilities | lists of characters | partial | Uppercase (ASCII), splitting and trimming of blanks are proved for all strings. Chomp keeps other white space (chomp_tab_refuted). Substitute is correct for texts of equal length without common characters; other lengths are refuted and a replacement containing the replaced text never ends. |
| C53 Fields of one call use disjoint draws | from the value theorems: field k uses its own section of the draws | proved | The value theorems say which draws field k uses, for every number of fields; the laws include that the fields are uncorrelated (white noise) and independent (independent normal draws). |
| C54 Seed files | model of the seed file functions over an abstract file system | partial | The reported seed after a failed read is wrong (refuted); the stream itself is unchanged by any failed call. |
| C55 Reading n numbers from a line | loop model of the stream extraction; witness for a short line | partial | Reading from lines with enough fields is proved; the exception for short lines is refuted for every line that does not end with white space. |
| C56 Words and quotations on a line | lists of characters, loop over quotations; witnesses | partial | Proved for lines that do not begin with a quotation mark; refuted with a witness for lines that do; an unclosed quotation diverges. |
| C57 Ranges and file of the precomputed 2D covariance | loop invariants over the table; witness with azimuth -45 degrees | partial | x range proved; y range refuted with a witness, its actual meaning proved; file values proved, corners refuted. |
| C58 Bins of the empirical variogram | lists of cells as finite sets; SciPy's bin numbers by counting edges | proved | The averages and the bins are proved for all grids; the last sentence (ny = 1 < nz) is proved as a theorem too. |
| C59 The empirical variogram is unbiased | loops over lists of numbers that may be nan; linearity of the integral | proved | Bins in which a reference point has no pair are excluded (they are nan). |
| C60 Distances of the empirical variogram | corollaries of C58 and C59; witnesses with spherical variogram | partial | Both parts refuted (the first for every valid call); the second is proved when the farthest distances are multiples of the resolution. |
| C61 Reference points | slices as lists; integer quotients | proved | The strategy 'random' is not modelled. |
| C62 Names of the Python package | case distinction on the enumeration; reuse of C22 | partial | The exported names are refuted. |
| C63 Law of the normal numbers | The sampler is a function of a sequence of uniforms. Rejection loops are treated by conditioning on the first accepted pair (lintegral_loop); the branch laws are sums of uniforms, the wedge under the bell curve (its bounds by piecewise Taylor polynomials) and the tail in polar coordinates; the constants by alternating-series bounds for the integral of the bell curve. | proved | The uniform numbers are ideal here (independent, continuous); those of the generator are multiples of 2^-52 produced by a deterministic recursion (C14, C38). |
| C64 Law of the simulated fields | C01 gives the field as a linear function of the draws, C63 their law; probabilities are compared one coordinate at a time. | proved | As C63: ideal uniform numbers. |
| C65 Draws, distribution function and quantiles of a distribution object agree | Every Quantile is a monotone function of p with a Galois connection to the distribution function; the law is its image measure of the uniform law, identified by its distribution function and density. | proved | Uniform numbers are ideal (independent, uniform on [0, 1)). splitUniform_describes_partial lacks the density only, which is C66. A negative maximum (no maximum) of the power law is not covered. |
| C66 Pdf is the density of the law of the draws | The distribution function is differentiated off a finite set; the fundamental theorem of calculus gives the law with this density. | partial | False for SplitUniform: Pdf tests x > max instead of x < max, is zero between the middle value and the maximum and positive on the whole line above the maximum, so it is not the density of any law. Proved for Uniform, Triangular and Fractal. |
| C67 Integers drawn from a histogram | Loop invariants for the normalised and the cumulated histogram; the search stops at the least index; law by the distribution function on the integers. | proved | Exact arithmetic: with rounding the last cumulated value can be below 1, so that Quantile(1) reads past the end; this is outside the model. |
| C68 Draws from a part of the power law | A scaled uniform number has the law of a uniform number given an interval; conditioning commutes with the strictly increasing quantile function. | proved | Uniform numbers are ideal. A negative maximum (no maximum) is not covered. |
| C69 Binomial distribution | The table of the constructor is the sums of the probabilities (loop invariant); the search keeps Cdf(low) <= q < Cdf(high). | partial | Law, Pdf, Cdf proved for binomial coefficients computed right, which the code does for n to 36 (binomial_of_code_partial). Quantile violates the property: Quantile(1) is n-1, and Quantile(Cdf(k)) is k+1; proved instead that it is the least k with Cdf(k) > q for q < 1. |
| C70 Poisson distribution | Inversion loop: invariant, then law from the cumulated sums. Rejection loop: invariant of the loop with the bounds on the quick-accept branch. Factorial loop: invariant; overflow at 13. | partial | Draws have the law for lambda < 10 and are never negative for any lambda; the law of the rejection method for lambda >= 10 (an approximate method: rounded constants) is not proved. Pdf right up to 12, undefined behaviour from 13. Cdf divides by k! and takes the wrong tail; Quantile overflows, with the incomplete gamma function of the code. |
| C71 Transform sizes and padding survive rounding | `Model/Ieee` defines round-to-nearest-even to a binary format, subnormals included. The size search and the padding are modelled with every operation rounded and with an arbitrary logarithm of stated accuracy (`LogAcc`); least-size and least-padding theorems are proved for those. Above 2^24 cells, and from 2^22+1 with float logarithms, refuted: the size is less than requested. | partial | Proved in the stated ranges (`SizeOk`, `PadOk`). Fails for 2^24+1 cells (any logarithm) and 2^22+1 (float logarithms): the size is below the minimum and simulate without padding never returns a field. Padding can be one more than the least. Sizes between 2^17 and 2^22 with float logarithms are not decided. |
| C72 Correlations in double arithmetic | `Model/VariogramFl` repeats the functions with every operation rounded. Forward error analysis: factors, quadratic form (error at most 1200 units times the largest factor), square root, each correlation function. Witnesses computed exactly: NaN for ranges 2^30 and 3 at 45 degrees; 1 + 2^-52 for Matern 5/2. | partial | Proved for anisotropies up to 2^18. Refuted without the bound on the anisotropy (NaN, correctly rounded library), and the bound 1 is exceeded by rounding. |
| C73 Variogram estimation by distance classes | Distances are roots of integers, so different ones differ by more than the tolerance; components are then classes of equal distance. Means over classes are finite sums; expectations by linearity. | proved | Components of SciPy are modelled by reachability. The covariance of the fields is a hypothesis of ev2_isotropic (what C04 and C31 prove where neither wrap-around nor clipping interferes). With one cell in y and several in z nothing is returned (ev2Simulate_flat_refuted); a close range that is not positive is an IndexError (ev2_no_close). |
| C74 Uniform and histogram draws in double arithmetic | Rounded model of both classes; relative error of rounded sums by induction; rounding is monotone and idempotent, so that rounded partial sums are monotone; witnesses computed operation by operation. | partial | Proved in full for draws of uniform numbers. The code violates the rest: Uniform::Quantile(1) can exceed the maximum; with six equal bins Quantile(1) reads past the end of the array; with nine the last cumulated probability exceeds 1; with fourteen a draw reads past the end in an admissible generator state. Proved for histograms: the error bounds, and the quantile for arguments up to 1 - (3 n + 1) 2^-52. Overflow of max - min is not represented. |
| C75 Deviations reported by the padding analyzer | The loop is followed by induction over the jobs: which row each estimate is stored in and which fields it was computed from. The convergence loop by induction over the fields. One dimension: the bins of distances are singletons, so each entry is an explicit mean. | partial | Proved: rows, fields used, paddings, reproducibility, the convergence analysis. Refuted: the number of fields (nmax is rounded down to 10 k + 1), the distances (grid, and a shift by one cell between estimate and correlation, so the expectation is not 0), the seed 0. Expectations are computed in one dimension with resolution factor 1; the first entry is 1 - corr(d) in every run there. |
| C76 Fields simulated in double arithmetic | Errors are followed in the l2 norm through the stages: covariances (C72), forward transform, clipping and square root (the squared difference of two roots is at most the difference of the squares), product with the transformed noise, backward transform, scaling. The transform of the product need not be Hermitian, so the assumption about the backward transform also covers inputs near a Hermitian one. The mean uses that the transform of white noise has uncorrelated entries. | proved | Overflow and fused multiply-add are not modelled. The transform library is assumed to be near the exact transform (Fftw.Near), not modelled. simulate*DFl_near hold for any variogram and smoothing, given the error of the single covariances. |
| C77 Surface values are weighted averages of the nodes around | model GetCorners, CellRel, the two interpolations; hat-function weights as specification; common factor of the weights cancels outside the grid | proved | Real numbers instead of doubles. Points whose cell number does not fit an int are undefined behaviour in the code. |
| C78 Values inside a surface | GetZInside is GetZ in every cell without its upper edges; negation at the upper edges for every surface; accidental missing value | partial | The code violates the claim: on the right and upper edge of every surface GetZInside gives the missing value although IsInsideSurface is true; interpolation between -998 and -1000 gives the missing value -999. Proved for each cell without its upper edges. |
| C79 Nodes, node numbers and cells of a surface | floor and clamping arithmetic; cell of FindIndex; negation on the upper edges and for a surface of one node | partial | FindIndex violates the claim on the upper edges, where it gives GetNI()-1, which is no cell; and on a one-column surface with a length it gives indices that belong to no node. Proved for surfaces with two or more rows and columns away from the upper edges. |
| C80 Arithmetic and statistics of a surface skip missing nodes | loop invariants; neighbours as a set; negation for Add and for empty surfaces | partial | Everything is proved but the last sentence, which the code violates: adding 1 to a node of value -1000 makes it missing for good. Min and Max of a surface without nodes are undefined behaviour. |
| C81 Arithmetic with another surface | loop that replaces each element by a function of index and value; GetZ at own nodes from C77 | proved | The comments in the header promise that missing areas shrink; they grow. Division by zero leaves the finite numbers. The other surface is not the surface itself. |
| C82 Rotated surfaces | coordinate identities; extremes of a linear function on a rectangle are at corners; witnesses | partial | The code violates two of the claims: EnclosesRectangle compares with the bounding box and says yes to rectangles outside the surface (proved: the converse implication), and SetAngle does not update the box. The rest is proved. |
| C83 Resampling a rotated surface | two nested loops fill the grid; spacing of the result; witness at a quarter turn | partial | The code samples at multiples of the old node distance but gives the result the spacing width/(nx-1). Proved when the bounding box is a whole number of node distances wide and high; witness otherwise (a node at 3 holds the value of 2). |
| C84 Surface files: what is written is read back | character by character: output of numbers, tokens, input of numbers; induction over the list of values | partial | The code violates the statement for values within 5e-7 of 9999900, which are missing when read back; proved without them. Node distances below 5e-7 become 0. Doubles are exact: reading a decimal number does not round. |
| C85 Surface files: any file is read safely | every reader returns or throws; the error flags of the stream through header and values; size_t arithmetic | partial | The code violates it for negative sizes: NI = NJ = -1 with one value is accepted as a surface of 2^64 - 1 by 2^64 - 1 nodes, NI = -2147483648 overflows. Proved for files whose sizes are not negative. |
| C86 Surface files: a cut file is rejected | readers that do not come to the end read the same from a longer stream; composition over header and values | proved | Because the array reader insists on a character after the last number. |
| C87 Text files: quotations | induction over the text before the mark and over the quotation | partial | The code violates it: an empty quotation gives the closing mark and the text up to the next one, and an unclosed one is accepted as the rest of the file. Proved for closed quotations that are not empty. |
| C88 Text files: comments | an inductive description of text that is only white space and comments; induction over it | partial | Proved if there is such a character. At the end of a file the code violates it: after a last comment line, or in an empty file, a character without a value is compared, and after trailing white space the stream has failed but is not at its end. |
| C89 Text files: the array readers | reading a number does not depend on what follows white space; induction over the array | partial | The readers differ in two ways, proved as witnesses: the fast one refuses a last number at the very end of a file, and accepts two numbers without white space between them. What the plain one reads before the end of the file, the fast one reads too. |
| C90 Statistics of sequences | invariant of the search loops; sums over ranges; integral of the centred sum of products | partial | The last sentence fails for a single value: its variance is 0 but the covariance divides 0 by 0, proved as a witness. The rest is proved. |
| C91 Kriging in one dimension | loop invariants over the ranks of the known cells; orthogonality of the error; a recursion for the exponential, a power series and Vandermonde for the Gaussian matrix | proved | LAPACK is modelled by what it documents. At least one observation is assumed. A wrong number of observations is undefined behaviour, krig1D_count. |
| C92 Text files: the rest of a line | induction over the line | proved | Found missing by a wrong program in which the end of the line was not read. |
| C93 Kriging data at the nodes of a grid | totals and counts per node are invariants of adding points | proved | Which node a point belongs to is C79. A mean that is 99999 is dropped from blocks (finding). |
| C94 Kriging in two dimensions, all data at once | loop invariants for the nodes written; orthogonality of the error; positive definiteness of products of Gaussian kernels | partial | Proved with at least one datum, for krig_all = true. The code violates the last sentence without data: the grid of residuals is then the trend, krig2D_empty_violation. LAPACK is modelled by what it documents; the OpenMP version is not modelled. |
| C95 Kriging in two dimensions, in blocks | termination and bounds of the search; partition of the grid into blocks; submatrices of positive definite matrices; bounds of the conversions | partial | Success, windows and order are proved. Data nodes get their values if P/2 ranges are at least four nodes (up to 200 data, krig2D_blocks_honours). The code violates the rest, krig2D_blocks_violation: nodes left over when the grid is divided by ten do not use the data there; residual grids keep the trend where a block has no data. With more than 200 data and a range of less than one node the behaviour is undefined. No int overflow is assumed; the OpenMP version is not modelled. |
| C96 Kriging in two dimensions from data anywhere | the surface as a function of nodes; Cholesky as documented; inverse of positive definite matrices; projection | partial | All proved except where the code violates the statement: data outside the surface are compared with the code for missing values (krigCont_outside_violation), missing nodes get other values (krigCont_missing_violation), with more data than nodes nothing is done (krigCont_idle, krigCont_many_violation), and data that round to 99999 in float are dropped (krigCont_float_violation). The prediction theorem is for exact data; the conversion to float is an arbitrary function elsewhere. |
| C97 Kriging in two dimensions from data anywhere, in blocks | as C95, with real coordinates and a half open window | partial | Success, windows and order are proved. Data at nodes are honoured if P/2 ranges are longer than four nodes (up to 200 data, krigCont_blocks_honours). The code violates the rest, krigCont_blocks_violation: nodes left over when the size is divided by ten do not use the data there; residual surfaces keep the trend where a block has no data. With more than 200 data and a range of zero the behaviour is undefined. No int overflow, and not more data than nodes, is assumed. |
| C98 Kriging in two dimensions from points moved to nodes | cells of points; C93 and C94 composed, C95 for blocks | partial | All proved but the last sentence, which the code violates: another point in the same cell spoils a datum at a node (krigIndex_violation). Points outside the surface are undefined behaviour (krigIndex_outside). In blocks the mean is kept if P/2 ranges are at least four nodes and there are up to 200 points (krigIndex_blocks). |
| C99 Linear interpolation in one dimension | the search characterised for increasing lists; then the segments by a loop invariant | partial | Proved if the places increase strictly and the place is less than 1e10 above the point before it (affine functions without that). linear_far: beyond that distance the line through the first two points is used. The code violates the statement with a repeated point, whose special case continues the line before it: linear_violation. |

## 5. Findings

Where the code does not do what a property says, the negation is proved with a concrete witness
(theorem names ending in `_refuted`, `_ub`, `_wrong`, `_diverges`), and the property is proved under
the extra condition that makes it true.

Sizes and padding

* `FindNewSizeWithPadding` with an even size requested returns 1 for 1 (C20).
* From 65536 on it converts a double above 2^64 to `size_t`; undefined in the standard's terms (C20).
* It converts the size to `float`: for 2^24+1 it returns 2^24, and a one-dimensional simulation of that many
  cells without padding reads past the end of an array. With the float `log` this starts at 2^22+1 or
  earlier (C20, C71).
* The default padding can be one cell more than needed because range/step is rounded (C18).
* The size reported by `simulation_size` is before the rounding to an FFT size, so it can be less
  than what is simulated (C17).
* A zero step, or a range of 2^31 steps or more, is an out-of-range conversion to `int` (C18, C43).
* A negative step makes `simulation_size` report less than `nx` (C17), or wrap to 2^64-24 in y while
  `simulate` runs in one dimension (C19), and makes `simulate` read past an array (C43).
* The default padding is too short for a rotated variogram in one dimension and for a dipping one in
  three (C09).

Variograms

* A perpendicular or vertical range of 0 is divided by; a negative main range is accepted (C21).
* With power 0 the general exponential correlation at lag 0 is exp(-3), not 1 (C23).
* In double arithmetic, ranges 2^30 and 3 with azimuth 45 give a negative argument of the square root for the
  lag (3, 3): the correlation is NaN. The Matérn 5/2 correlation of a small lag is 1 + 2^-52 (C72).
* A type name with a non-ASCII character is passed to `toupper` as a negative number (C22).
* 3.14/2 is used for a right angle when the extents of the range ellipsoid are found (C31).
* `CovGrid2D`: the lag `ny` is answered with another lag's value or past the table (C49); the y range
  ignores lags whose parts have different signs, and the file's corners do not fit its increments
  (C57).

Fields

* The two- and three-dimensional covariance grid is not point symmetric on the half-grid lines of a
  rotated variogram (C33); the field has the mean of the two values there (C04).
* One-dimensional Gaussian fields are clipped and have too much variance (C05).
* `simulate(None, ...)` dereferences a null pointer (C43).
* The two-argument-grid convenience function returns the same field at every call (C45).

Random numbers

* Seeds that agree modulo 2^32 give the same stream (C14).
* Filling a block when the array is partly used returns numbers that are drawn again later (C38).
* The normal sampler divides by zero if a pair of uniform numbers is (1/2, 1/2) (C42).  No value
  exceeds 12.27.
* The normal sampler's mixture weights are rounded to ten decimals: values beyond ±3 have probability
  0.0026997961, more than under the normal law; densities differ by up to two parts in 10^8 (C63).
* A failed read of a seed file overwrites the reported seed (C54).
* The module declares itself free of the interpreter lock but the generator is shared without a lock:
  two overlapping calls of simulate can return the same field where one after the other they return
  different ones (witness after seed(1)); near the end of the array a thread can draw the lung word
  as a uniform number (above 10^200 in the witness) or read past the state (C44).

Distributions

* `SplitUniform::Pdf` has the wrong comparison: zero between the middle value and the maximum, positive
  everywhere above the maximum (C66).
* `GeneralDiscrete` of an empty histogram reads out of range, of a zero histogram divides by zero (C67).
* `Binomial::Quantile` returns the least k with Cdf(k) > q, so Quantile(Cdf(k)) is k + 1, and Quantile(1)
  is n - 1 (C69). Draws have the right law all the same.
* `Poisson::Pdf` and `Poisson::Cdf` compute k! in an `int`, which overflows from k = 13; `Cdf` is the
  probability of more than k divided by k!, so that Cdf(0) is 1 - exp(-lambda); `Quantile` runs into the
  overflow (C70).
* In double arithmetic the last cumulated probability of `GeneralDiscrete` need not be 1. With six equal bins
  it is 1 - 2^-53 and `Quantile(1)` reads past the end; with nine it is 1 + 2^-52; with fourteen it is so low that
  `Draw` itself reads past the end when the generator returns its largest number (C74).
* In double arithmetic `Uniform::Quantile(1)` can exceed the maximum; draws cannot, but can equal it (C74).

Surfaces

* `GetZInside` gives the missing value on the right and upper edge of every surface, where `IsInsideSurface`
  is true (C78).
* The missing value is an ordinary number: interpolating between -998 and -1000, or adding 1 to -1000, makes a
  point or a node missing (C78, C80).
* `FindIndex`, `FindI` and `FindJ` give GetNI() - 1 on the upper edge, which is no cell; on a one-column surface
  with a length they give indices outside the grid (C79).
* `Min`, `Max` and the node versions read out of range on an empty surface (C80).
* The comments of the `...NonConform` functions promise that missing areas shrink; a node keeps a value only
  if both surfaces have one (C81).
* `RegularSurfaceRotated::EnclosesRectangle` compares with the bounding box and says yes to rectangles that
  are outside the surface; `SetAngle` leaves the bounding box of the old angle (C82).
* `ResampleSurface` takes values at multiples of the node distance of the rotated surface and puts them on a
  grid of another node distance (C83).
* Irap files: a value within 5e-7 of 9999900 is missing when it is read back; node distances below 5e-7 become
  0, after which every interpolation divides by 0 (C84).
* Irap files: negative sizes are not rejected; two negative sizes whose product is the number of values give
  a surface with sizes near 2^64, the smallest int overflows (C85).

Python package

* `EmpiricalVariogram` returns the upper ends of the bins as "midpoints", so that on a line the
  estimate is shifted by one cell; reference points other than the corner have bins of another width
  (C60).
* `EmpiricalVariogram` cannot be used with one cell in y and several in z (C58).
* `EmpiricalVariogram2` says that it estimates the variogram; it returns estimates of twice the
  variogram of a smoothed field (its example program halves them).  It cannot be used with one cell
  in y and several in z, nor with a close range that is not positive (C73).
* `PaddingAnalyzer`: with the defaults 591 of the 600 fields are used (10 * floor((nmax - 1) / 10) + 1 in
  general); entry b of a row compares the estimate at lag b d with the correlation at (b + 1) d, so that the
  first entry is 1 - corr(d) whatever the padding; `grid` has none of the distances of the entries and ignores
  the resolution factor; a seed of 0 is replaced by 12313, and 0 for L, n, drf or nmax by the default (C75).
* `from gaussianfft import *` raises AttributeError (C62).

Files and strings

* Reading or writing an empty binary array forms a reference to element 0 of an empty vector (C50).
* IBM numbers: denormals, infinities, values below 2^-126 or from 2^128 on, and unnormalised numbers
  are converted wrongly (C51).
* `Chomp` keeps tabs; `Substitute` is wrong for texts of different lengths and loops if the new text
  contains the old one (C52).
* `ParseAsciiArrayFast` does not notice that a line is too short (C55); `GetQuotedTokens` is wrong for
  a line that begins with a quotation and loops on an unclosed one (C56).
* `ReadNextQuoted` gives the closing mark and the text up to the next mark for an empty quotation, and accepts
  an unclosed one (C87).
* `SkipComments` compares a character without a value at the end of a file, and after trailing white space
  leaves the stream in a state where `CheckEndOfFile` puts one back (C88).
* `ReadAsciiArrayFast` refuses a last number at the very end of a file and accepts `1-2` as two numbers;
  `ReadAsciiArray` does neither (C89).  `WriteAsciiArray` with 0 elements per line divides by zero.

Statistics

* `Cov` of a single pair divides 0 by 0, although `Var` of one value is 0 (C90).
* `Krig2D` with residuals asked for leaves the trend in the grid if there are no data (C94).  A mean of data that
  happens to be 99999 is left out of blocks, though it is used if all data are used at once (C93).
* `Krig2D` in blocks (C95): when the grid size is not a multiple of ten, the nodes left over belong to the last
  block, but the search for data does not know; data there may not be honoured.  With residuals asked for, a block
  without data keeps the trend.  With more than 200 data and a range of less than one node, a NaN is converted to
  an integer, which is undefined behaviour.
* `Krig2D` of a surface from data anywhere (C96): a datum outside the surface is compared with the code for missing
  values, so the neighbouring nodes get wild values; missing nodes get numbers; with more data than nodes nothing is
  done, without a message; a datum of 99999.001 is dropped, since it becomes 99999 as a `float`.
  In blocks (C97) the nodes left over are treated as in C95, and data before the first node are never used, however
  close; with an index grid (C98) data are moved to the lower left node, not the nearest one, and averaged there.
* `Interpolation` (C99, C100): a repeated point, for which `Linear1D` has a case, spoils the line after it, since the search
  returns the first of two equal places. The search starts with the distance 1e10: beyond it, linear and spline
  interpolation go on with the first segment, and the extrapolation value is not used. The spline of two points reads
  outside a vector.
* `Normal` (C101-C104): `Quantile(0)` and `Quantile(1)` throw, although the assertion admits them. The potential with two
  limits takes the width of a narrow interval for its probability. `PhiInverse` compares probabilities with a tolerance of
  10⁻⁶, and so returns mean + 10 std_dev for all quantiles from about 4.75 standard deviations on; draws from truncated
  distributions inherit this, and are constant if the limits leave a probability of at most 10⁻⁶.
  `PotentialLowerTruncated` asserts that x > 0 where x > min is meant.
* `LogNormal` (C105): `SetParameters` hands the old parameters to the normal distribution it draws from. The default
  constructor sets sigma to 0 for the distribution function and to 1 for draws.
* `Beta` (C106): `Pdf` looks up the cell of x minus half a cell: the density is moved by half a cell, and does not integrate
  to 1. Between multiples of 1/nx, `Quantile` is not the inverse of `Cdf`. Far from the interval, `Pdf` and `Cdf` convert a
  number that is too big to int before they look whether it is needed.
* `BetaWithEndMass` (C107): `Pdf` is infinite in both ends also without mass there; the constructor does not check the sum of the
  masses.
* `ResourceExtrapolator` (C108): the argument `ex_nmax` of `extrapolate` has no effect; nothing is extrapolated.

Geometry

* `Line` (C109-C111): `IsParallel` is false for all lines unless a limit is given. `FindDistanceAndSide` is wrong about points
  beside the far end of the line. The distance to a segment of length zero is taken from the first point of the line.
  `IntersectXY` takes rays and whole lines for segments, and parallel segments never meet.
* `Plane` (C112): no error found; the comment on horizontal planes is out of date.
* `Triangle` (C113): the nearest point to a segment is looked for on the edges only, which is wrong if the segment ends above
  the inside of the triangle.
* `Box` (C114): `FindIntersections` returns points of edges and corners several times, six for the diagonal of a cube.
* `Transformation` (C115): no error found.
* `Polygon` (C116-C118): `IsInsidePolygonXY` is right. `IsCounterclockwise` leaves out the edge from the last corner to the first;
  therefore `IsConvex` rejects a triangle, and `MakeConvex` deletes one of its corners, and does not end for a quadrangle. `IsConvex`
  accepts a five-pointed star. `GetCircumferenceXY` leaves out the edge before the last corner (3 for the unit square) and counts
  heights; `DistanceBetweenPointsXY` is 0 for the first and the last corner of the unit square. For polygons without corners all of
  these read outside of the vector. `TangentPointPoly` is right (C119).
* `BilinearSurface` (C120): `FindIntersections` finds nothing for horizontal lines, reports points beyond the ends of a segment and
  up to 5 per cent outside of the surface, and takes a twist for zero that is small relative to the coordinates of the first
  corner, so that reported points are off the surface. `IsAbove` is always false for plane quadrangles that are not
  parallelograms, and compares a volume with 0.001, so that nothing less than ten units above a square of one hundredth is above it.
* `Volume` (C121, C122): `IsInside(x, y, z)` takes the missing value of a surface for a height. The height leaves out the far sides
  of the area, the extremes leave out all sides. `SetDimensions`, `SetAngle` and `SetSurfaces` have changed the volume when they throw,
  and leave it with the old height. `SetSurfaces(v.GetTopSurface(), ...)` uses a deleted object. The copy constructor resets the
  tolerance, assignment does not. `FindCenter` ignores the angle.
- **Secondary observations are mixed up after observations were merged** (C124, `secondary_merged_violation`). `EliminateLargeCorr` shortens the lists of
  places, values and standard deviations, but not that of local correlations, which is then read by the new positions. With a primary
  observation given twice and a secondary one elsewhere, the secondary one is treated as exact.
- **A primary observation is dropped for an earlier secondary one at the same place** (C124, `secondary_primary_violation`). Both branches of
  `IdentifyLargeCorr` take the local correlation of the second observation, so the result depends on the order of the observations.
- **Observations that are nearly the same may be in different chains** (C124, `identify_pairs_violation`). Only later observations are
  looked at from a member of a chain.
- **Draws of `MultiNormal` have the wrong covariances** (C126, `draw_law_partial`, `draw_violation`): the Cholesky factor is kept in a
  symmetric matrix, and the product with the standard normal numbers uses it as such. With variances 2 and covariance 1 the first
  component is drawn with variance 2.5. The covariances are right only for diagonal matrices.
- **`MultiNormal::SetParameters` does not change the covariances of the draws** (C126, `setParameters_violation`), and an object made by
  the constructor without parameters cannot draw.
- **`MultiNormal::Potential` accepts matrices that are not positive definite** (C127, `potential_violation`): with two variances of -1 it
  returns a number.
- **`Sort3x3` reads outside the matrix if an eigenvalue is -100000 or less** (C128, `sort3x3_spec`).
- **`Grid4D::GetIJKL` is wrong for all cells with a fourth index above 0** (C129, `grid4D_getIJKL`, `grid4D_getIJKL_violation`): the
  fourth index it gives is always 0, and the third one is no index of the grid.
- **`Grid2DGeneral::Swap` does not exchange the bounds** (C129, `window_swap_violation`): the larger of two windows afterwards
  reads outside the memory for cells that it says are valid.
- **`Grid2D::FindMin` and `FindMax` of a grid without values give the greatest number of the type** (C129,
  `grid2D_extremes_violation`); `Grid2DGeneral` gives the missing value.
- **`StormContGrid::FindIndex` fails on the bottom surface** (C130, `storm_bottom_violation`): points on it belong to the volume,
  but the layer is one too large.
- **`StormContGrid` compares after a conversion to unsigned** (C130, `storm_negative_violation`): a negative double is converted
  to `size_t`, which is undefined behaviour, before the test that should throw.
- **`GetValueClosestInZ` extrapolates, and averages the missing code** (C131, `storm_closest_extrapolates`,
  `storm_closest_violation`, `storm_closest_bottom_violation`).
- **`BlockWell` averages facies codes** (C133, `block_disc_violation`): positions with facies 1 and 4 in one cell give facies 2.
- **`BlockWell` loses the code for missing values** (C133, `block_disc_violation`): with a code other than -999, missing cells
  count as values.  A well without values is read outside the memory (`block_empty_violation`).
- **`Well::GetContValue` and `GetDiscValue` do not do what their comments say** (C132, `well_value_violation`): missing logs and
  positions after the end are undefined behaviour, not the missing value.
- **`MakeLogsUppercase` loses logs whose names differ only in case** (C132, `well_uppercase_violation`).
- **`gammp` is 0 instead of 1 far above large `a`** (C135, `gammp_underflow_violation`): for `a >= 100` the sign of a quadrature
  tells the tails apart, and a sum that underflows to zero counts as the lower one.  `gammp(100, 2000)` is 0.
- **`ChiSquared::Pdf(0)` is not a number for two degrees of freedom** (C136, `chi_pdf_zero_violation`): zero times the logarithm
  of zero.  `Quantile(1)` is finite (`chi_quantile_one_violation`).
- **`Wavelet::Resize` to a smaller length writes outside the memory** (C137, `wavelet_shrink_violation`): for every wavelet and every
  smaller length.
- **`Wavelet::Resample` refuses multiples that were rounded down** (C137, `wavelet_resample_violation`): e.g. from 0.1 to 0.3.
- **`EclipseGrid::ReadFaults` never returns if the file ends before the slash** (C139, `faults_eof_violation`), since the state of the
  stream is not looked at.
- **Names of faults without quotes lose their first and last character** (C139, `faults_unquoted_violation`).
- **Going through a fault with a reversed segment runs over the range of `int`** (C138, `fault_faces_violation`), and a fault without
  segments has no first face.
- **Faults without segments are lost in a file** (C139, `faults_lost_violation`), and what is written of a name with white space is
  refused (`faults_blank_violation`).
- **A seismic cube made from a grid or a surface exchanges the axes** (C141, `segy_grid_violation`): points inside are said to be
  outside and conversely if the numbers of cells differ, and the index of a point is that of another cell.
- **Negative in-lines and cross-lines are off by one** (C141, `segy_negative_violation`), since 0.5 is added and the sum is truncated.
- **`SegyGeometry::FindIndex` of lines accepts the line after the last one** (C140, `segy_beyond_violation`), with an index that no trace
  has, and lines between those that are there.
- **`SegyGeometry::FindXYFromContILXL` is wrong for lines that are not perpendicular** if one family is parallel to an axis (C140,
  `segy_oblique_violation`).
- **`SegyGeometry::GetILXLSubGeometry` can give lines outside the range asked for** (C142, `segy_between_violation`), divides by a step of
  0 (`segy_zero_step_violation`) and does not refuse a reversed range (`segy_reversed_violation`).
- **A seismic cube cannot be made from traces in some orders** (C144): if the first trace is in the middle of a square, the
  directions of the lines are 0 divided by 0 (`segy_traces_middle_violation`), as they are if the second trace has the cross-line
  of the first and the third a smaller one (`segy_traces_order_violation`), or if there is one cross-line and the in-lines are in
  descending order (`segy_traces_descending_violation`).
- **In a cube of a single trace the axes are exchanged** (C143, `segy_single_trace_violation`).
- **Points inside the cells of a corner-point grid are misplaced** (C146): `FindPointCellSurface` has wrong coefficients, so that in a box
  the point in the middle of the cell is off by a sixteenth of the width (`eclipse_box_violation`,
  `eclipse_surface_depth_violation`).
- **The numbers of the pillars are not counted before they are read** (C145, `eclipse_coord_violation`).
- **Finding a point in a corner-point grid of one layer never ends** (C148, `eclipse_one_layer_violation`,
  `eclipse_find_box_violation`): `bot - 1` is the greatest `size_t`.  Points on a side parallel to the y axis get `u = 0`
  (`eclipse_local_violation`), a layer without thickness hides the next (`eclipse_thin_layer_violation`), and pillars of no height are
  divided by, in spite of a `catch` (`eclipse_pillar_violation`).
- **Local regression of trends is not invariant** (C152, `trend_regression_violation`, `trend_regression_order`): the constant added
  to make the matrix invertible is a penalty on the slope in proportion to the squared places, so moving all places by 1000 turns the
  estimate 3 of a line into 1.01, and of equal places just outside the window only the last one in the order of input is used.
- **Trend data** (C149-C151): resampling sets nothing if one new place is before the trend (`trend_resample_before`) and never the last
  place (`trend_resample_violation`); interpolation in one dimension mixes in -99999 for missing numbers (`trend_linear_violation`);
  the constant trend reads shorter logs beyond their end and cuts longer ones (`trend_constant_violation`); the variance of 46342
  numbers overflows (`trend_variance_violation`); windows leave out equal elements (`trend_window_violation`).
- **A trend in three dimensions is read upside down between layers** (C153, `trend_value_3d_violation`): `Trend3D::GetValue` gives the
  upper layer the weight of the lower one, so at a layer it returns the next one, and the value jumps.
- **A trend in one dimension leaves out its first number** in `GetMeanValue`, and so in `ScaleToAverage`, and in `CheckForNegative`
  (C154, `trend_mean_violation`, `trend_check_violation`).
- **The first and the last column of a cube are interpolated with traces of other rows** (C156, `segy_value_first_column_violation`):
  `SegY::GetValue` takes the places before and after in the table for the neighbours along a row. Half way between the numbers 0 and 1 of
  the first two of three columns, it gives 1 / 8.
- **A trace stored with more data than fit is written out of range**, and a surface a sample or more above the cube gives a negative
  number converted to `size_t` (C158, `segy_stored_trace_violation`, `segy_stored_trace_above_violation`).
- **Surfaces above the cube select the whole trace**, where the code has an error for it (C158, `segy_samples_violation`).
- **Copying a trace made of numbers** reads its header, a null pointer (C155, `segy_trace_copy_violation`).
- **The check of a trace header format accepts fields that share bytes** (C159, `segy_header_check_violation`):
  `TraceHeaderFormat::CheckFormat` compares the locations only. With the cross-line two bytes after the in-line, the in-line 7 is read as 1.
  It does not look at the start time either.
- **Coordinates in trace headers are truncated** (C159, `segy_header_coordinate_violation`): with coefficient -100, 0.019 is written as 0.01.
- **`SetScalCo(1)` leaves the scale of an earlier coefficient** (C159, `segy_header_stale_scale_violation`); so does `Read`. The file says
  that the coordinates are not scaled, and they are.
- **In the format SIP, `WriteAllTracesToFile` writes an offset that is not set** (C159, `segy_header_offset_violation`).
- **`ascii2ebcdic` reads beyond its table for the character 128** (C160, `segy_text_violation`): the test is `c > 128` where the table
  has 128 entries.
- **The text of the empty header of files of traces is not EBCDIC in the repository** (C160, `segy_text_empty_violation`): all characters
  but spaces are the bytes EF BF BD (a character that could not be decoded), so that no line begins with C, lines are longer than 80 bytes
  and `SetLine` writes into the middle of lines. The test for such a header in `TraceHeader::Read` compares a `char` with the same three
  bytes and cannot succeed (this test is not in the model).
- **The number of samples in the binary header is cut to 16 bits** (C160, `segy_binary_violation`): 65536 samples are written as 0, and a
  step of 32.768 or more is undefined behaviour.
- **Removing the stream of the screen leaves its number** (C161, `log_screen_violation`): the next `SetScreenLog` deletes the stream that
  has its place now, e.g. a file, or writes outside of the vector.
- **A log for a single phase has all messages of phases from 1000 on** (C161, `log_one_phase_violation`), and `LogFormatted` writes texts
  of 5000 characters or more (1000 with a phase) beyond its array (`log_formatted`).
- **`SegY::FindDeltaILXL` has a wrong sign** (C162, `segy_steps_violation`, `segy_control_violation`): the denominator is a sum where the
  solution of the equations in its comment has a difference. Headers of regular grids are refused unless the first two traces are on one
  inline. For files that follow the crosslines it divides by zero (`segy_steps_crossline_violation`).
- **`SetBogusILXLUndefined` removes the lines on both sides of a missing line** (C163, `segy_bogus_violation`): with inlines 1, 2, 3, 5, 6, 7
  all traces of the inlines 3 and 5 are set undefined, although they match the step.
- **`SegY::CompareTraces` takes the root of a negative number** (C164, `segy_compare_violation`): the first number of units is rounded
  up, and for a pair of traces across a cell of 25 by 25 the rest is negative. The conversion of the root to `int` is undefined behaviour.
  The ratio of squared line differences is also an integer division, and `delta` is not assigned when the traces are refused at once.

## 6. Tests against wrong programs

`seeded/LOG.jsonl` has one line per wrong program: a definition of the model was edited in a scratch
copy, and the whole project was rebuilt to see which theorems fail.  `theorems_failed` is what Lean
reported; the build stops below the first module with an error, so `property_theorems_lost` adds the
theorems of MANIFEST.json whose proofs (by their recorded dependencies) use a theorem that failed.

## 7. Trusted base

* Lean's kernel (4.33.0).  No `sorry`, no axioms of our own, no `native_decide`, no `bv_decide`.
  `decide +kernel` is used for concrete witnesses and for finite tables only.
* Axioms, as reported by `#print axioms` for each of the theorems of `MANIFEST.json`:
  * none: `LogKit.log_end`, `grid4D_getIJKL_violation`, `grid4D_swap`, `window_swap_partial`.
  * `propext`: `CommonHeaders.segy_text_refused`, `LogKit.log_example`, `LogKit.log_screen_violation`, `Py.starImport_refuted`, `chomp_tab_refuted`, `fftSize_unique`, `readNextQuoted_empty`, `readNextQuoted_none`, `readNextQuoted_partial`, `readNextQuoted_unclosed`, `scanInt_local`, `skipComments_space`, `skipComments_spec`, `skipComments_ub`, `window_swap_violation`.
  * `Quot.sound`, `propext`: `CommonHeaders.segy_text_codes`, `CommonHeaders.segy_text_violation`, `LogKit.log_formatted`, `LogKit.log_level_violation`, `LogKit.log_with_library`, `Random.initializeFile_cannotOpen`, `Random.initializeFile_unchanged_partial`, `Random.initializeFile_unchanged_refuted`, `SegyCheck.segy_bogus_between_violation`, `SegyCheck.segy_bogus_example`, `SegyCheck.segy_bogus_keeps`, `SegyCheck.segy_bogus_only`, `SegyCheck.segy_bogus_regular_example`, `SegyCheck.segy_bogus_violation`, `SegyValues.segy_sort_index`, `Threads.calls_draw_lung`, `Threads.calls_own_generators`, `Threads.calls_past_state`, `TraceHeader.segy_header_check_violation`, `TraceHeader.segy_header_formats`, `discardRestOfLine_last`, `discardRestOfLine_spec`, `emptyArray_ub`, `face_opposite`, `faults_face_names`, `grid2D_index_outside`, `grid4D_getIJKL`, `grid4D_getIJKL_partial`, `lag_spec`, `readArray_eof`, `readAsciiArrayFast_eq`, `readAsciiArray_write`, `uppercase_idempotent`.
  * `Classical.choice`, `Quot.sound`, `propext`: the other 871.
* The reading of the C++ sources (the model is hand-written), the C++ standard library.
* Exact arithmetic instead of doubles, except in the choice of sizes (C20, C71), in the correlation functions
  (C72) and in two distributions (C74), where rounding to nearest even without
  overflow, extended precision or fused operations is assumed; FFTW's documented behaviour (a hypothesis `Fftw.Laws` of the
  theorems, not an axiom).
