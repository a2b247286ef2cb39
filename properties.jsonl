{"id": "C01", "title": "Clusters are always sorted, disjoint and in range", "statement": "After any sequence of the DataClusters calls next(), combine_clusters(), reset_clusters(), starting from a freshly built object whose x is non-decreasing, the cluster table is non-empty and each row [lo,hi] satisfies lo<=hi<len(x), with hi of each row strictly smaller than lo of the next.", "quantifier": "all data sets (any length, any y, any resolution >= 0, any tie order of the sort), all finite call histories", "why_tests_cant": "The call history is unbounded and the data arbitrary; tests see a handful of traces.", "anchors": ["src/diffpy/srmise/dataclusters.py:DataClusters.__next__", "src/diffpy/srmise/dataclusters.py:DataClusters.combine_clusters", "src/diffpy/srmise/dataclusters.py:DataClusters.reset_clusters", "src/diffpy/srmise/dataclusters.py:DataClusters._setdata"]}
{"id": "C02", "title": "Every successful next() clusters a new point and forgets none", "statement": "Whenever next() returns, the point it reports (lastpoint_idx) was in no cluster before the call, is in a cluster afterwards, every previously clustered point stays clustered, and no other unclustered point has a larger y. With strictly increasing x, next() raises StopIteration only when every point is clustered. A point within res of the nearest cluster joins it; a point farther away starts its own.", "quantifier": "all reachable clustering states", "why_tests_cant": "Must hold in each reachable state, not only along a few test traces.", "anchors": ["src/diffpy/srmise/dataclusters.py:DataClusters.__next__"]}
{"id": "C03", "title": "makeclusters terminates and clusters every point exactly once", "statement": "Iterating a non-empty DataClusters with strictly increasing x stops after at most len(x)-1 steps, with every index in exactly one cluster; no state after DONE can be iterated further.", "quantifier": "all non-empty data sets with strictly increasing x, all resolutions", "why_tests_cant": "Termination and completeness range over all data.", "anchors": ["src/diffpy/srmise/dataclusters.py:DataClusters.__next__", "src/diffpy/srmise/dataclusters.py:DataClusters.makeclusters", "src/diffpy/srmise/dataclusters.py:DataClusters.__iter__"]}
{"id": "C04", "title": "find_nearest_cluster answers the nearest-cluster query", "statement": "For every index, the answer is [c,0] with the index inside cluster c when it is in a cluster, otherwise the signed distance to cluster c (positive right of it, negative left) whose absolute value is minimal among all clusters.", "quantifier": "all reachable cluster tables and all point indices, x strictly increasing", "why_tests_cant": "All tables x all indices.", "anchors": ["src/diffpy/srmise/dataclusters.py:DataClusters.find_nearest_cluster"]}
{"id": "C05", "title": "combine_clusters merges without changing which points are clustered", "statement": "A successful combine_clusters(groups) leaves exactly the same set of clustered points, replaces each group by one cluster spanning it and leaves every other cluster alone; a group that has a gap, is not consecutive, or reuses a cluster raises ValueError.", "quantifier": "all cluster tables and all group lists", "why_tests_cant": "Argument space is unbounded.", "anchors": ["src/diffpy/srmise/dataclusters.py:DataClusters.combine_clusters"]}
{"id": "C06", "title": "find_adjacent_clusters returns exactly the maximal runs", "statement": "The returned groups are exactly the maximal runs (length >= 2) of consecutive clusters with no unclustered point between neighbours, in increasing order; combining them always succeeds and leaves no two adjacent clusters.", "quantifier": "all cluster tables", "why_tests_cant": "All tables; tests check a few.", "anchors": ["src/diffpy/srmise/dataclusters.py:DataClusters.find_adjacent_clusters", "src/diffpy/srmise/dataclusters.py:DataClusters.combine_clusters"]}
{"id": "C07", "title": "reset_clusters forgets all clustering progress", "statement": "After any history reset_clusters() puts the object back in a state from which clustering proceeds exactly as from a fresh object on the same data (identical clusters, points and status after each next()).", "quantifier": "all histories, all data", "why_tests_cant": "Arbitrary history.", "anchors": ["src/diffpy/srmise/dataclusters.py:DataClusters.reset_clusters", "src/diffpy/srmise/dataclusters.py:DataClusters._setdata"]}
{"id": "C08", "title": "cluster_is_full tells whether the cluster can still grow", "statement": "cluster_is_full(i) is True exactly when each of the points immediately left and right of cluster i either does not exist or is already in another cluster.", "quantifier": "all reachable cluster tables, all cluster indices", "why_tests_cant": "All tables.", "anchors": ["src/diffpy/srmise/dataclusters.py:DataClusters.cluster_is_full"]}
{"id": "C09", "title": "Zero resolution makes each point its own cluster", "statement": "With res = 0 and strictly increasing x, complete clustering yields exactly the n single-point clusters in order.", "quantifier": "all data sets", "why_tests_cant": "All data.", "anchors": ["src/diffpy/srmise/dataclusters.py:DataClusters.__next__", "src/diffpy/srmise/dataclusters.py:DataClusters._setdata"]}
{"id": "C10", "title": "Evaluator comparisons form a total order", "statement": "For two evaluations by the same method exactly one of a<b, a==b, a>b holds, >= and <= are their complements, the order is transitive, and it is reversed by higher_is_better; evaluators of different methods or not yet evaluated never compare.", "quantifier": "all pairs and triples of evaluator states", "why_tests_cant": "Order laws range over all stat values.", "anchors": ["src/diffpy/srmise/modelevaluators/base.py:ModelEvaluator.__lt__"]}
{"id": "C11", "title": "AIC and AICc values and their penalties", "statement": "A fresh evaluator's evaluate() returns chi^2 + penalty(k,n) when n >= minpoints(k) (an evaluator that is used again keeps the chi^2 of its first fit); the AICc denominator is positive exactly for n>=k+2, the AICc penalty is at least the AIC penalty and both are strictly increasing in k; a fit not worse in chi^2 with fewer parameters always has the lower (better) AIC and AICc; scaling all uncertainties by c divides chi^2 by c^2.", "quantifier": "all k, n, chi^2", "why_tests_cant": "Real-valued inequality over all inputs.", "anchors": ["src/diffpy/srmise/modelevaluators/aic.py:AIC.evaluate", "src/diffpy/srmise/modelevaluators/aicc.py:AICc.evaluate"]}
{"id": "C12", "title": "growth_justified accepts growth only when enough data exists to evaluate it", "statement": "growth_justified(fit,k) is true for AIC/AICc exactly when there are enough points for the larger model and the criterion of a perfect fit with k additional parameters would be lower than the present value; it is monotone in k, AICc justification implies AIC justification, and with k = 0 it is true exactly when chi^2 > 0 (and there are enough points).", "quantifier": "all fits and k", "why_tests_cant": "All values.", "anchors": ["src/diffpy/srmise/modelevaluators/aic.py:AIC.growth_justified", "src/diffpy/srmise/modelevaluators/aicc.py:AICc.growth_justified"]}
{"id": "C13", "title": "Akaike weights and probabilities", "statement": "For any non-empty list of AICs the weights lie in (0,1], the best AIC gets weight 1, probabilities are positive, sum to 1, are larger for a smaller AIC, and adding a constant to every AIC changes neither.", "quantifier": "all non-empty lists of AIC values", "why_tests_cant": "All real lists.", "anchors": ["src/diffpy/srmise/modelevaluators/aic.py:AIC.akaikeweights", "src/diffpy/srmise/modelevaluators/aic.py:AIC.akaikeprobs"]}
{"id": "C14", "title": "Packing and unpacking free parameters round-trip", "statement": "unpack_freepars after pack_freepars(v) returns v, and packing the unpacked values changes nothing, for a vector of the right length.", "quantifier": "all part lists, all free masks, all vectors", "why_tests_cant": "All masks and sizes.", "anchors": ["src/diffpy/srmise/modelparts.py:ModelParts.pack_freepars", "src/diffpy/srmise/modelparts.py:ModelParts.unpack_freepars", "src/diffpy/srmise/modelparts.py:ModelPart.update", "src/diffpy/srmise/modelparts.py:ModelPart.compress"]}
{"id": "C15", "title": "A fixed parameter is never changed by packing", "statement": "pack_freepars changes no parameter whose free flag is False, in any part, and never changes the free flags, whether it returns or raises.", "quantifier": "all part lists and vectors", "why_tests_cant": "All inputs.", "anchors": ["src/diffpy/srmise/modelparts.py:ModelParts.pack_freepars", "src/diffpy/srmise/modelparts.py:ModelPart.update"]}
{"id": "C16", "title": "Residual and its Jacobian agree", "statement": "The residual is (data - sum of parts)/error and the list returned by residual_jacobian is its derivative with respect to the free parameters, in the same order as unpack_freepars.", "quantifier": "all part lists with differentiable parts", "why_tests_cant": "All parameters; derivative is a limit.", "anchors": ["src/diffpy/srmise/modelparts.py:ModelParts.residual", "src/diffpy/srmise/modelparts.py:ModelParts.residual_jacobian", "src/diffpy/srmise/modelparts.py:ModelParts.value"]}
{"id": "C17", "title": "Changing the owner of a part is all or nothing", "statement": "changeowner either installs the new owner or raises StaticOwnerError/ValueError and leaves the part unchanged; a static part can never end up with another owner.", "quantifier": "all parts, owners and call histories", "why_tests_cant": "Histories.", "anchors": ["src/diffpy/srmise/modelparts.py:ModelPart.changeowner"]}
{"id": "C18", "title": "A fit either succeeds or leaves a consistent model", "statement": "ModelParts.fit raises SrMiseFitError and leaves the parameters untouched when there are at least as many free parameters as points, does nothing when there are none; when it succeeds the optimiser reported success and the model is the normalised form of the original with the optimiser's vector packed into the free parameters; in all cases fixed parameters, flags and owners are kept. (When the optimiser reports failure the parameters do move; a singular covariance ends in TypeError.)", "quantifier": "all part lists and all optimiser behaviours", "why_tests_cant": "The optimiser is a black box.", "anchors": ["src/diffpy/srmise/modelparts.py:ModelParts.fit"]}
{"id": "C19", "title": "Serialisation order of base functions", "statement": "safefunctionlist returns every function reachable from the argument exactly once, each after all the functions it depends on.", "quantifier": "all finite acyclic dependency graphs", "why_tests_cant": "All graphs.", "anchors": ["src/diffpy/srmise/basefunction.py:BaseFunction.safefunctionlist", "src/diffpy/srmise/basefunction.py:BaseFunction.safefunction"]}
{"id": "C20", "title": "Restricting to a range only masks values", "statement": "value(pars,r,rng) equals the full value on the indices in rng and 0 elsewhere, has the length of r, and likewise each Jacobian row, with None exactly for fixed parameters.", "quantifier": "all grids and slices", "why_tests_cant": "All.", "anchors": ["src/diffpy/srmise/basefunction.py:BaseFunction.value", "src/diffpy/srmise/basefunction.py:BaseFunction.jacobian"]}
{"id": "C21", "title": "Parameter format names resolve consistently", "statement": "default_input, default_output and None denote the declared formats; unknown formats raise ValueError; transforming derivatives between equal formats is the identity.", "quantifier": "all format strings", "why_tests_cant": "All strings.", "anchors": ["src/diffpy/srmise/basefunction.py:BaseFunction.transform_parameters", "src/diffpy/srmise/basefunction.py:BaseFunction.transform_derivatives"]}
{"id": "C22", "title": "Covariance expansion places each free parameter and zeroes the fixed ones", "statement": "After setcovariance(parts, pcov), the covariance of two free parameters (i,j) is the matching entry of pcov, and any covariance involving a fixed parameter is 0.", "quantifier": "all part lists, masks and covariance matrices", "why_tests_cant": "All sizes.", "anchors": ["src/diffpy/srmise/modelcluster.py:ModelCovariance.setcovariance", "src/diffpy/srmise/modelcluster.py:ModelCovariance.getcovariance"]}
{"id": "C23", "title": "Correlations are symmetric, bounded by one, and 0 for fixed parameters", "statement": "getcorrelation is symmetric, lies in [-1,1] for a positive semidefinite covariance matrix, is 1 on the diagonal for a positive variance and 0 when a variance is 0.", "quantifier": "all covariance matrices", "why_tests_cant": "All.", "anchors": ["src/diffpy/srmise/modelcluster.py:ModelCovariance.getcorrelation"]}
{"id": "C24", "title": "Covariance transforms by the Jacobian of the format change", "statement": "ModelCovariance.transform turns V into G V^T G with G block diagonal, made of the gradients of the selected parts' format changes and the identity elsewhere, which for symmetric V and gradients is G V G^T and stays positive semidefinite; with diagonal gradients each covariance is multiplied by the two derivatives; unselected parts are left alone. (parts='baseline' raises KeyError; a part without parameters makes it raise half way; for non-symmetric gradients the result is not G V G^T.)", "quantifier": "all covariance matrices and Jacobians", "why_tests_cant": "All.", "anchors": ["src/diffpy/srmise/modelcluster.py:ModelCovariance.transform"]}
{"id": "C25", "title": "Joining adjacent clusters keeps the model", "statement": "join_adjacent raises ValueError if the clusters are not adjacent or do not share their data; otherwise the joined slice is the union, the argument order does not matter, and the joined peaks are exactly those of both clusters in order of position, except that of several peaks exactly at the border one stays, their free parameters possibly rescaled so that their sum at the border is the height of the data there; fixed parameters, flags and functions are kept.", "quantifier": "all pairs of clusters", "why_tests_cant": "All.", "anchors": ["src/diffpy/srmise/modelcluster.py:ModelCluster.join_adjacent"]}
{"id": "C26", "title": "Replacing and deleting peaks respects removability and order", "statement": "replacepeaks/deletepeak raise ValueError on non-removable peaks, otherwise remove exactly the given peaks, insert the new ones and leave the model sorted by position.", "quantifier": "all models, slices and new peak lists", "why_tests_cant": "All.", "anchors": ["src/diffpy/srmise/modelcluster.py:ModelCluster.replacepeaks", "src/diffpy/srmise/modelcluster.py:ModelCluster.deletepeak"]}
{"id": "C27", "title": "A fit never makes the cluster worse", "statement": "ModelCluster.fit on a cluster with peaks returns either an evaluation of the new model that is not worse than before, or None with exactly the original peaks and baseline; a successful fit keeps every peak (function, flags, removability) except those cleanfit regards as poor, so no sound non-removable peak is lost. On a cluster without peaks the estimated peak is the reference. (Exceptions other than SrMiseFitError, e.g. a singular covariance, leave moved parameters.)", "quantifier": "all models and optimiser behaviours", "why_tests_cant": "Optimiser is a black box.", "anchors": ["src/diffpy/srmise/modelcluster.py:ModelCluster.fit"]}
{"id": "C28", "title": "contingent_fit refits exactly when the cluster has grown enough", "statement": "contingent_fit(minpoints, growth) fits exactly when the cluster has data above the uncertainty and was never fitted and has at least minpoints points, or was fitted and has grown to at least growth times its size then; otherwise it returns None and changes nothing; a cluster marked never-fit after any history of slice changes has no point above the uncertainty, and directly after a fit it is not fitted again.", "quantifier": "all clusters and histories", "why_tests_cant": "All.", "anchors": ["src/diffpy/srmise/modelcluster.py:ModelCluster.contingent_fit", "src/diffpy/srmise/modelcluster.py:ModelCluster.change_slice"]}
{"id": "C29", "title": "Pruning terminates, keeps non-removable peaks, and does not worsen the model when no fit is reverted", "statement": "prune always terminates; the peaks afterwards are some of those before (same function and flags), every non-removable peak among them, whatever the fits do and also when it raises; if no parameter is fixed and no fit during the search is taken back the model is unchanged or strictly better. (When a fit is taken back during the search pruning can worsen the model; it can stop early; it can raise IndexError.)", "quantifier": "all models and optimiser behaviours", "why_tests_cant": "Search loop over a black box.", "anchors": ["src/diffpy/srmise/modelcluster.py:ModelCluster.prune"]}
{"id": "C30", "title": "Gaussian peak values: height, centre, width, area", "statement": "The Gaussian of parameters (position,width,area) in pwa format is non-negative, has its maximum at position, has half of the maximum at position +- width/2, and integrates to area.", "quantifier": "all parameters with 0 < width <= maxwidth, all r", "why_tests_cant": "All reals.", "anchors": ["src/diffpy/srmise/peaks/gaussian.py:Gaussian._valueraw", "src/diffpy/srmise/peaks/gaussian.py:Gaussian._transform_parametersraw"]}
{"id": "C31", "title": "Parameter formats of peaks round-trip and do not change the peak", "statement": "Transforming pwa -> internal -> pwa and mu_sigma_area -> internal -> mu_sigma_area returns the original parameters whenever width <= maxwidth; the normalising internal -> internal transformation is idempotent, lands in the principal range and leaves the value at each r unchanged.", "quantifier": "all parameter values", "why_tests_cant": "All reals.", "anchors": ["src/diffpy/srmise/peaks/gaussian.py:Gaussian._transform_parametersraw", "src/diffpy/srmise/peaks/gaussianoverr.py:GaussianOverR._transform_parametersraw"]}
{"id": "C32", "title": "Peak width never exceeds maxwidth", "statement": "Whatever values the optimiser gives to the internal parameters, the FWHM of the peak is between 0 and maxwidth; asking for a larger width raises SrMiseTransformationError.", "quantifier": "all internal parameters", "why_tests_cant": "All reals.", "anchors": ["src/diffpy/srmise/peaks/gaussian.py:Gaussian._transform_parametersraw", "src/diffpy/srmise/peaks/gaussianoverr.py:GaussianOverR._transform_parametersraw"]}
{"id": "C33", "title": "Jacobian of GaussianOverR is the derivative of its value", "statement": "Each row of the GaussianOverR Jacobian is the partial derivative of the value with respect to that internal parameter.", "quantifier": "all parameters with area != 0, all r != 0", "why_tests_cant": "A limit.", "anchors": ["src/diffpy/srmise/peaks/gaussianoverr.py:GaussianOverR._jacobianraw", "src/diffpy/srmise/peaks/gaussianoverr.py:GaussianOverR._valueraw"]}
{"id": "C34", "title": "transform_derivatives of GaussianOverR is the Jacobian of the format change", "statement": "Entry (i,j) is the partial derivative of output parameter i with respect to input parameter j.", "quantifier": "all parameters in the principal range", "why_tests_cant": "A limit.", "anchors": ["src/diffpy/srmise/peaks/gaussianoverr.py:GaussianOverR._transform_derivativesraw"]}
{"id": "C35", "title": "max() of peaks returns the location and height of the maximum", "statement": "Gaussian: max() returns the position and the value there, which no other value exceeds. Gaussian/r at a positive position: max() raises ValueError exactly when position^2 <= 4 sigma^2 (then the values decrease on r>0, there is no maximum), otherwise returns a point whose value strictly exceeds every value right of the other stationary point.", "quantifier": "all parameters", "why_tests_cant": "All reals.", "anchors": ["src/diffpy/srmise/peaks/gaussian.py:Gaussian.max", "src/diffpy/srmise/peaks/gaussianoverr.py:GaussianOverR.max"]}
{"id": "C36", "title": "scale_at rescales the value at x while keeping the peak height", "statement": "scale_at(x, s) of a peak function either raises SrMiseScalingError (s <= 0, width needed above maxwidth) or yields parameters whose value at x is s times the old while position and height (Gaussian) or location and height of the maximum (Gaussian/r) are kept; shrinking always succeeds. (At the position of a Gaussian itself it returns a peak of zero area.)", "quantifier": "all parameters, x, scale", "why_tests_cant": "All reals.", "anchors": ["src/diffpy/srmise/peaks/gaussian.py:Gaussian.scale_at", "src/diffpy/srmise/peaks/gaussianoverr.py:GaussianOverR.scale_at", "src/diffpy/srmise/peaks/base.py:Peak.scale_at"]}
{"id": "C37", "title": "Peaks.sort orders by position and keeps the same peaks", "statement": "After sort() the peaks are a permutation of the previous ones in non-decreasing position order; argsort() gives that permutation.", "quantifier": "all peak lists", "why_tests_cant": "All.", "anchors": ["src/diffpy/srmise/peaks/base.py:Peaks.sort", "src/diffpy/srmise/peaks/base.py:Peaks.argsort"]}
{"id": "C38", "title": "Polynomial baseline: value, estimate and Jacobian", "statement": "The value is sum a_d r^d over the degrees, degree < 0 is the zero function, a wrong number of parameters is ValueError; the estimate of a line has intercept 0 and the least-squares slope of the lowest tenth of the data. (The Jacobian rows are in reverse order of the parameters: row i is r^i, parameter i is the coefficient of r^(degree-i).)", "quantifier": "all degrees, coefficients and r", "why_tests_cant": "All.", "anchors": ["src/diffpy/srmise/baselines/polynomial.py:Polynomial._valueraw", "src/diffpy/srmise/baselines/polynomial.py:Polynomial._jacobianraw"]}
{"id": "C39", "title": "Nanospherical baseline: shape and derivatives", "statement": "For a positive radius the value is -|scale| r (1-r/2R)^2 (1+r/4R) for 0<r<2R and 0 elsewhere, never positive, continuous in r; the array code agrees with the scalar code on every sorted grid; the radius row of the Jacobian is the derivative, the scale row is for positive scale; converting formats is idempotent. (A negative radius gives 0 everywhere although documented as equivalent to its absolute value; the scale row has the wrong sign for negative scales.)", "quantifier": "all scale, radius, r", "why_tests_cant": "All reals.", "anchors": ["src/diffpy/srmise/baselines/nanospherical.py:NanoSpherical._valueraw", "src/diffpy/srmise/baselines/nanospherical.py:NanoSpherical._jacobianrawscale"]}
{"id": "C40", "title": "The fitting range selects exactly the data within it", "statement": "For non-empty sorted x getrangeslice selects exactly those indices with rng[0] <= x <= rng[1] if there is one, and raises IndexError otherwise.", "quantifier": "all sorted grids and ranges", "why_tests_cant": "All.", "anchors": ["src/diffpy/srmise/peakextraction.py:PeakExtraction.getrangeslice"]}
{"id": "C41", "title": "Near and other peaks are a partition, and the near ones are the nearest", "statement": "At a border the peaks of a cluster split into the near and the other peaks with none lost or doubled for every pivot; for sorted positions the near peaks are the last one left of the border and the first one not left of it; the interpeak range reaches to the second peak on each side or the cluster's end.", "quantifier": "all peak lists, all pivots", "why_tests_cant": "All.", "anchors": ["src/diffpy/srmise/peakextraction.py:PeakExtraction.extract_single"]}
{"id": "C42", "title": "Resampling and supersampling", "statement": "errorscale is at least 1 and its square is the degree of oversampling when qmax>0, nyquist and scale are on; on a uniform grid resample is the Whittaker-Shannon sum and reproduces the samples at the sampling points; the new grid consists of all points from the lower end in steps dr below the upper end; resampled uncertainties are at least the least given one and equal the given ones at grid points. (On a non-uniform grid resample does not reproduce the samples.)", "quantifier": "all grids and qmax", "why_tests_cant": "All.", "anchors": ["src/diffpy/srmise/pdfpeakextraction.py:PDFPeakExtraction.errorscale", "src/diffpy/srmise/pdfpeakextraction.py:resample", "src/diffpy/srmise/pdfpeakextraction.py:PDFPeakExtraction.resampledata"]}
{"id": "C43", "title": "stdratio computes running variances in one pass", "statement": "Element i of stdratio(data) is the standard deviation of the first i+2 points divided by that of the i+2 points after them, for all i < len(data)//2-1; fewer than four points raise IndexError.", "quantifier": "all data sequences", "why_tests_cant": "All.", "anchors": ["src/diffpy/srmise/pdfpeakextraction.py:stdratio"]}
{"id": "C44", "title": "Classification partitions the models", "statement": "classify puts every model into exactly one non-empty class, and classes_idx tells which; the models of a class are in increasing order and all of them are alike its first model: the same kinds and numbers of parameters, and for each peak and the baseline the difference of the sums of the squared values is within the tolerance; no model is alike the first model of an earlier class. (Findings: sums are compared, so peaks without a common point can be 'the same'; peak functions are not compared; two members of a class need not be alike.)", "quantifier": "all lists of models evaluated on one grid, all tolerances", "why_tests_cant": "All.", "anchors": ["src/diffpy/srmise/multimodelselection.py:MultimodelSelection.classify"]}
{"id": "C45", "title": "Model queries by rank agree with the AICs", "statement": "get_model(dG, cls=None, morder=k) runs for k=0,1,... through all models, each once, from lowest to highest AIC, and raises IndexError beyond; with a class, through its models; get_class(dG, corder=k) through the classes in the order of their lowest AIC; get_model(dG) has the lowest AIC of all; get_prob is the probability of the model's class, these are positive, sum to 1 and are ordered as the AICs; modelbestdgs gives exactly the uncertainties at which the model is the best; dg_key the nearest tested one. (Finding: classbestdgs and modelbestdgs ignore their argument dgs.)", "quantifier": "all AIC tables, partitions into classes, ranks, and tie orders of argsort", "why_tests_cant": "All.", "anchors": ["src/diffpy/srmise/multimodelselection.py:MultimodelSelection.get_model", "src/diffpy/srmise/multimodelselection.py:MultimodelSelection.bestmodels"]}
{"id": "C46", "title": "Uncertainty rescaling of chi^2", "statement": "The AIC that makeaics computes for an uncertainty dg by rescaling the chi-square of the first uncertainty equals that of a direct evaluation with dg, and the list of each uncertainty has one entry per model in their order. (Finding: an uncertainty given k times has every entry k times.)", "quantifier": "all models, data and lists of uncertainties with a non-zero first one", "why_tests_cant": "All.", "anchors": ["src/diffpy/srmise/multimodelselection.py:MultimodelSelection.makeaics"]}
{"id": "C47", "title": "PDF data set text format", "statement": "Reading succeeds only if every data line starts with two numbers; then r, G, dr, dG have one entry per line, r and G are the first two columns, dr and dG the third and fourth if every line has a usable (positive) value there and otherwise all zero, rmin and rmax the first and last r. A data set with all-positive or all-zero uncertainties is read back from its written lines with the same numbers up to the rounding of the number format. (Findings: mixed uncertainties are lost; an empty data set cannot be read back; a bad line leaves part of the data, with r and G of different lengths; copy() drops spdiameter.)", "quantifier": "all data lines, all number formats", "why_tests_cant": "All.", "anchors": ["src/diffpy/srmise/pdfdataset.py:PDFDataSet.readStr", "src/diffpy/srmise/pdfdataset.py:PDFDataSet.writeStr"]}
{"id": "C48", "title": "setvar/getvar accept exactly the refinable variables", "statement": "getvar after setvar of qdamp, qbroad or dscale (blanks around are ignored) returns the set value, the other variables and all other attributes are unchanged; any other name, or a value that is no number, raises an error and changes nothing.", "quantifier": "all names and values", "why_tests_cant": "All.", "anchors": ["src/diffpy/srmise/pdfdataset.py:PDFDataSet.setvar", "src/diffpy/srmise/pdfdataset.py:PDFDataSet.getvar"]}
{"id": "C49", "title": "Log levels", "statement": "After any history of setlevel, setfilelevel and addfilelog with positive levels (addfilelog not below INFO), stdout shows exactly the messages at or above its level and each log file gets exactly those at or above its own. (Findings: addfilelog with DEBUG does not log debug messages; setlevel(0) hides INFO messages; names in capitals raise TypeError after the change; addfilelog('debug') leaves a detached file log; liveplotting with a bad second argument has set the first.)", "quantifier": "all call histories", "why_tests_cant": "Histories.", "anchors": ["src/diffpy/srmise/srmiselog.py:setlevel", "src/diffpy/srmise/srmiselog.py:setfilelevel", "src/diffpy/srmise/srmiselog.py:addfilelog"]}
{"id": "C50", "title": "Traces are numbered and levelled correctly", "statement": "During an outermost traced call exactly the emitted traces that pass all filters are recorded, each with the current recursion depth and numbered 0,1,2,...; after it returns no call is active and the depth is 0. (Findings: an exception leaves the tracer inside the call, so the next extraction is not reset and one level too deep; reading a trace returns the reader's counters, not the file's.)", "quantifier": "all call sequences", "why_tests_cant": "Histories.", "anchors": ["src/diffpy/srmise/srmiselog.py:TracePeaks"]}
{"id": "C51", "title": "The extraction loop's bookkeeping never goes wrong", "statement": "On any non-empty data with distinct coordinates the main loop of extract_single ends, violating none of its assertions, after fewer than n iterations, with exactly one data cluster spanning the range and exactly one model cluster with the matching slice.", "quantifier": "all data sets, resolutions and tie orders", "why_tests_cant": "Invariant over an unbounded loop on arbitrary data.", "anchors": ["src/diffpy/srmise/peakextraction.py:PeakExtraction.extract_single", "src/diffpy/srmise/dataclusters.py:DataClusters.combine_clusters"]}
{"id": "C52", "title": "find_nearest_cluster2 answers for the data point right of the coordinate", "statement": "For a coordinate right of the first and not right of the last data point, the answer is a cluster nearest to the first data point not left of the coordinate, with that point's signed distance. (Right of the data it raises IndexError; left of it the answer has the distance of the last point; inside the data the cluster need not be the one nearest to the coordinate itself.)", "quantifier": "all reachable cluster tables and coordinates", "why_tests_cant": "All tables x all coordinates.", "anchors": ["src/diffpy/srmise/dataclusters.py:DataClusters.find_nearest_cluster2"]}
{"id": "C53", "title": "Construction, copying and equality of model parts", "statement": "ModelPart(owner, pars, free) accepts exactly matching lengths; a copy is equal to the original; == is an equivalence relation; getfree after setfree returns the value set and nothing else changes.", "quantifier": "all parts", "why_tests_cant": "All.", "anchors": ["src/diffpy/srmise/modelparts.py:ModelPart.__init__", "src/diffpy/srmise/modelparts.py:ModelPart.copy", "src/diffpy/srmise/modelparts.py:ModelPart.__eq__", "src/diffpy/srmise/modelparts.py:ModelPart.setfree"]}
{"id": "C54", "title": "Arbitrary and FromSequence baselines", "statement": "FromSequence accepts exactly one file, or x and y, positionally or by keyword, anything else is TypeError; Arbitrary passes parameters to the user's functions exactly if their number is right. (Arbitrary(n) has n+1 parameters; its lenient Jacobian always raises; reading sequences from a file loses the first character.)", "quantifier": "all argument combinations, parameter lists and files", "why_tests_cant": "All.", "anchors": ["src/diffpy/srmise/baselines/fromsequence.py:FromSequence.__init__", "src/diffpy/srmise/baselines/arbitrary.py:Arbitrary"]}
{"id": "C55", "title": "Peak estimation from data", "statement": "estimate_parameters raises SrMiseEstimationError exactly when the lengths differ or fewer than three values are positive; otherwise the estimate is finite, positioned between two points with positive data, has a FWHM in (0, maxwidth] and the height of the highest data point.", "quantifier": "all strictly increasing grids and data", "why_tests_cant": "All reals, all lengths.", "anchors": ["src/diffpy/srmise/peaks/gaussian.py:Gaussian.estimate_parameters", "src/diffpy/srmise/peaks/gaussianoverr.py:GaussianOverR.estimate_parameters"]}
{"id": "C56", "title": "correlationwarning lists exactly the strongly correlated pairs", "statement": "For a positive semidefinite covariance matrix, correlationwarning(t) lists exactly the pairs of different parameters with |correlation| > t, each once, with that correlation.", "quantifier": "all covariance matrices and thresholds", "why_tests_cant": "All sizes.", "anchors": ["src/diffpy/srmise/modelcluster.py:ModelCovariance.correlationwarning"]}
{"id": "C57", "title": "Scaling peaks and matching a height never touch fixed parameters", "statement": "Peak.scale_at and Peaks.match_at never change a fixed parameter; False means unchanged (except that match_at on exactly two peaks may have changed free parameters of the first); when every peak can be scaled match_at makes the sum at x exactly y. (The second attempt of match_at never works for three or more peaks.)", "quantifier": "all peak lists, coordinates and heights", "why_tests_cant": "All.", "anchors": ["src/diffpy/srmise/peaks/base.py:Peak.scale_at", "src/diffpy/srmise/peaks/base.py:Peaks.match_at"]}
{"id": "C58", "title": "cleanfit removes exactly the poor peaks", "statement": "cleanfit removes exactly those peaks that have NaN parameters or are removable and out of range / crowded / of negligible height, keeps the others in order, and returns the number removed.", "quantifier": "all sorted models", "why_tests_cant": "All.", "anchors": ["src/diffpy/srmise/modelcluster.py:ModelCluster.cleanfit"]}
{"id": "C59", "title": "reduce_to leaves the model alone or returns its evaluation", "statement": "When reduce_to(x,y) returns None the model is unchanged; when it returns an evaluation it is that of the cluster's model, which is not worse than the model scaled to y at x. (It can be worse than the original model, and the baseline is ignored in the test.)", "quantifier": "all models and optimiser behaviours", "why_tests_cant": "Optimiser is a black box.", "anchors": ["src/diffpy/srmise/modelcluster.py:ModelCluster.reduce_to"]}
{"id": "C60", "title": "augment adds only source peaks, terminates, and improves when no fit is reverted", "statement": "augment(source) ends after at most one round per source peak; the peaks afterwards are among those of the cluster and the source; if all peaks are removable and no fit is taken back the result is not worse. (With a non-removable peak in the cluster it always raises; with reverted fits it can worsen the model.)", "quantifier": "all models, sources and optimiser behaviours", "why_tests_cant": "Search loop over a black box.", "anchors": ["src/diffpy/srmise/modelcluster.py:ModelCluster.augment"]}
{"id": "C61", "title": "setdata stores sequences of one length", "statement": "setdata succeeds exactly when all given sequences have one length; then the object holds them, zeros for missing uncertainties, and no extraction variable changed. (A failed call has already replaced some data.)", "quantifier": "all sequences", "why_tests_cant": "All.", "anchors": ["src/diffpy/srmise/peakextraction.py:PeakExtraction.setdata"]}
{"id": "C62", "title": "setvars stores the given variables and fills in the others", "statement": "setvars with known names stores exactly the given values and then fills in defaults; an unknown name raises ValueError with exactly the variables before it changed.", "quantifier": "all keyword lists and states", "why_tests_cant": "All.", "anchors": ["src/diffpy/srmise/peakextraction.py:PeakExtraction.setvars"]}
{"id": "C63", "title": "defaultvars fills in exactly the missing variables", "statement": "On an object with data defaultvars succeeds, keeps every variable that is set, gives the others the documented defaults, and is idempotent; a baseline function is replaced by the estimated baseline or zero. (Variables derived from old data survive setdata; constant data get uncertainty 0.)", "quantifier": "all states with data", "why_tests_cant": "All.", "anchors": ["src/diffpy/srmise/peakextraction.py:PeakExtraction.defaultvars"]}
{"id": "C64", "title": "Extraction variables of PDF extractions", "statement": "dg is an alias of effective_dy; dg with effective_dy, automatic qmax without an estimate, and supersample < 1 are refused without effect; automatic qmax stands for the estimated one; defaults: qmax the reported, else the estimated, else 0, nyquist iff qmax > 0, cres pi/qmax.", "quantifier": "all states and keyword lists", "why_tests_cant": "All.", "anchors": ["src/diffpy/srmise/pdfpeakextraction.py:PDFPeakExtraction.setvars", "src/diffpy/srmise/pdfpeakextraction.py:PDFPeakExtraction.defaultvars"]}
{"id": "C65", "title": "PDF metadata round trip", "statement": "readmetadata(writemetadata()) restores all seven fields whatever the reading object held; a text without one of them raises SrMiseDataFormatError.", "quantifier": "all field values with one-line representations", "why_tests_cant": "All strings.", "anchors": ["src/diffpy/srmise/pdfpeakextraction.py:PDFPeakExtraction.writemetadata", "src/diffpy/srmise/pdfpeakextraction.py:PDFPeakExtraction.readmetadata"]}
{"id": "C66", "title": "The Nyquist resampling loop of extract terminates", "statement": "If a pass (resample, fit, prune) adds no free parameters, the loop ends after at most as many passes as there are free parameters plus one, with a sampling interval not above the Nyquist interval and more sampling intervals than free parameters.", "quantifier": "all models, all behaviours of a pass", "why_tests_cant": "Termination for every behaviour of the fits.", "anchors": ["src/diffpy/srmise/pdfpeakextraction.py:PDFPeakExtraction.extract"]}
{"id": "C67", "title": "estimate_peak looks at exactly the data near x and adds exactly what it returns", "statement": "estimate_peak(x) raises ValueError exactly when x lies outside the data; otherwise the estimate is made from exactly the cluster of the unexplained data (data minus baseline and known peaks) that contains the first point not left of x; None is returned if no point of that cluster rises above its uncertainty or no peak can be estimated. It returns None or a removable peak of one of the supplied peak functions. With add=True that one peak is added to the extracted peaks, or to initial_peaks when there are none, which stay sorted by position; nothing else changes, and with add=False or no peak found nothing changes beyond completing the default variables.", "quantifier": "all data, variables, x, optimiser and estimation results", "why_tests_cant": "Ranges over all data and all x, including those between clusters and at the ends.", "anchors": ["src/diffpy/srmise/peakextraction.py:PeakExtraction.estimate_peak", "src/diffpy/srmise/peakextraction.py:PeakExtraction.add_peaks"]}
{"id": "C68", "title": "extract_single returns one cluster over exactly the selected data", "statement": "If extract_single returns, extracted is one cluster over exactly the points whose coordinates lie in rng, with their original values and effective uncertainties (initial peaks that were subtracted are added back), with the evaluator and peak functions of the variables and the baseline of the variables, whose parameter values may have changed at the top level only; the main loop takes at most one iteration per point.", "quantifier": "all data with increasing coordinates, all variables, all behaviours of the fits, all recursion depths", "why_tests_cant": "The result depends on the optimiser and on a recursive search; must hold for all.", "anchors": ["src/diffpy/srmise/peakextraction.py:PeakExtraction.extract_single"]}
{"id": "C69", "title": "Every extracted peak comes from the supplied functions or the initial peaks", "statement": "Every peak in the result of extract_single is of one of the supplied peak functions, or is one of the initial peaks up to parameter values, none of which occurs more often than it was given.", "quantifier": "all data, variables, initial peaks and optimiser behaviours", "why_tests_cant": "Search with joins, recursion and pruning over a black box.", "anchors": ["src/diffpy/srmise/peakextraction.py:PeakExtraction.extract_single", "src/diffpy/srmise/modelcluster.py:ModelCluster.join_adjacent", "src/diffpy/srmise/modelcluster.py:ModelCluster.augment", "src/diffpy/srmise/modelcluster.py:ModelCluster.prune"]}
{"id": "C70", "title": "No non-removable initial peak is lost in extract_single", "statement": "The non-removable peaks of the result of extract_single are, up to parameter values and order, exactly the non-removable initial peaks.", "quantifier": "all data, variables, initial peaks and optimiser behaviours", "why_tests_cant": "Must survive any sequence of fits, joins, prunings.", "anchors": ["src/diffpy/srmise/peakextraction.py:PeakExtraction.extract_single"]}
{"id": "C71", "title": "Recursive searches nest at most three deep", "statement": "extract_single calls itself to a depth of at most three, whatever the data and the fits; and not at all if the evaluator never holds that more peaks could be justified in a residual.", "quantifier": "all data, variables and optimiser behaviours", "why_tests_cant": "Termination for every behaviour of the fits.", "anchors": ["src/diffpy/srmise/peakextraction.py:PeakExtraction.extract_single"]}
{"id": "C72", "title": "fit_single keeps the initial peaks and never returns a worse model", "statement": "When fit_single returns, the extracted cluster covers exactly the data in the range, its peaks are initial peaks up to parameter values (none twice, no non-removable one missing), its baseline is the given one up to parameter values, and by the evaluator in use it is of no worse quality than the initial peaks. Only the peak list behind initial_peaks and the baseline object can change; if it raises nothing is extracted. (Finding: the fit works on those very objects, so when the optimiser gives up or the result is rejected, the extracted cluster has the old parameters but initial_peaks and baseline are left with those of the failed fit.)", "quantifier": "all data, variables and optimiser behaviours", "why_tests_cant": "Must hold for every result, good or bad, of the optimiser.", "anchors": ["src/diffpy/srmise/peakextraction.py:PeakExtraction.fit_single", "src/diffpy/srmise/modelcluster.py:ModelCluster.fit"]}
{"id": "C73", "title": "The steps of extract_single lose no peak silently and take the better model", "statement": "When extract_single joins two clusters, the peaks of the joined cluster are those next to the border (at most two) and the others; the others stay in the result, those next to the border are replaced by the better of two models (reduced at the border, or fitted), taking the first only if it is better; a deeper search adds to a model only peaks found in the residual of that very model; at a full boundary likewise. After the main loop all initial peaks are added to all peaks found and to the data, and the model is then pruned, which only takes away removable peaks and only for a better model (with honest evaluator and convergent fits), and fitted. Only the final fit of a step can remove poor removable peaks. (Finding: the 'border' of a full boundary is taken at the data point whose index is the number of the cluster, which is never right of the cluster, so the peak considered near the border is the leftmost one even when the last data point has been reached.)", "quantifier": "all data, all models of the clusters, all optimiser and evaluator behaviours", "why_tests_cant": "Each step must be right for all intermediate states; tests see the few that arise in the examples.", "anchors": ["src/diffpy/srmise/peakextraction.py:PeakExtraction.extract_single"]}
{"id": "C74", "title": "Command line options of srmise reach the extraction", "statement": "When the srmise program reaches the extraction, every option given with a true value (range, cres, qmax, supersample, --nyquist, --scale, a baseline with parameters) is the value the extraction uses, and the uncertainties are those of the --dg-mode and --dg asked for (absolute value, fraction of the maximum, fraction of the peak-to-peak distance, fraction of the reported uncertainty, or those reported). (Findings: --no-nyquist, --no-scale, --cres 0, --supersample 0 and --bseq have no effect; --pf and --me always end the program because the names they are looked up in are never imported; with no --dg option a PDF without uncertainties is given uncertainties of zero; the qmax estimated from the data is never the default; --dg-mode absolute without --dg, and --bsrmise, end in an uncaught TypeError.)", "quantifier": "all combinations of options, all file contents, all defaults", "why_tests_cant": "Combinations of twenty options with every file; a test runs a few.", "anchors": ["src/diffpy/srmise/applications/extract.py:main", "src/diffpy/srmise/pdfpeakextraction.py:PDFPeakExtraction.setvars"]}
{"id": "C75", "title": "Baseline parameters on the command line", "statement": "Each parameter text of a baseline option is a number, which makes a free parameter, or a number followed by c, which makes a fixed one, in the order given, and nothing else is accepted; --bcrystal v is the line of slope -4 pi v through the origin, that is --bpoly1 with that slope and 0c.", "quantifier": "all texts and all interpretations of a text as a number", "why_tests_cant": "All texts.", "anchors": ["src/diffpy/srmise/applications/extract.py:parsepars", "src/diffpy/srmise/applications/extract.py:main"]}
{"id": "C76", "title": "Peaks, baselines and functions written as text are read back", "statement": "writestr of a peak or baseline succeeds exactly if its owner is in the list given, and Peak.factory / Baseline.factory then give back the same owner, parameters, free flags, removability and static owner, whatever white space surrounds the text, provided the numbers evaluate back to themselves; a text is refused with SrMiseDataFormatError exactly if some line is not key=expression with an expression that can be evaluated. The same for BaseFunction.writestr and factory with one-line metadata whose first word has no '='. (Findings: a parameter that is nan or inf is written but cannot be read back; owner index n into a list of n functions is IndexError, not the documented ValueError, and negative ones count from the end; metadata with '=' in the first word comes back under another key.)", "quantifier": "all parts, all function lists, all texts, all interpretations of eval and repr", "why_tests_cant": "All texts and all parameter values.", "anchors": ["src/diffpy/srmise/modelparts.py:ModelPart.writestr", "src/diffpy/srmise/peaks/base.py:Peak.factory", "src/diffpy/srmise/baselines/base.py:Baseline.factory", "src/diffpy/srmise/basefunction.py:BaseFunction.writestr", "src/diffpy/srmise/basefunction.py:BaseFunction.factory"]}
{"id": "C77", "title": "A cluster written as text is read back", "statement": "ModelCluster.writestr succeeds exactly if the functions in use are in the lists given and the data are complete; ModelCluster.factory on that text gives back the same peaks, baseline, peak functions and slice, the data as they come back from %g, and the evaluator found under the name written; the columns read have equal length. (Findings: with the package as it is, the evaluator is never found, so every text written ends in AttributeError; a cluster without points is written but refused; a text without a data section ends in NameError instead of SrMiseDataFormatError.)", "quantifier": "all clusters, function lists, texts, all interpretations of eval, repr, float and %g", "why_tests_cant": "All texts and all clusters.", "anchors": ["src/diffpy/srmise/modelcluster.py:ModelCluster.writestr", "src/diffpy/srmise/modelcluster.py:ModelCluster.factory"]}
{"id": "C78", "title": "Extraction files can be written, but never read", "statement": "writestr of a PDFPeakExtraction succeeds for every object with a clustering resolution, data columns of one length and, if something was extracted, peak functions: the lists of functions written contain every function in use. (Findings: read and readstr never return, whatever the file: the file is opened in binary mode and searched with text patterns, and one pattern is not a regular expression; the object is cleared before that. An object of the base class, one without a clustering resolution, and one whose cluster has no peak functions cannot be written.)", "quantifier": "all objects, all files and texts", "why_tests_cant": "No file can be read; a test on any one file cannot tell.", "anchors": ["src/diffpy/srmise/peakextraction.py:PeakExtraction.read", "src/diffpy/srmise/peakextraction.py:PeakExtraction.readstr", "src/diffpy/srmise/peakextraction.py:PeakExtraction.writestr"]}
{"id": "C79", "title": "Queries of a MultimodelSelection answer for the last makeaics and classify", "statement": "Whatever was done with the object before: with at least one result and different uncertainties makeaics succeeds, and classify after it; then for each of these uncertainties get_model, get_class, get_prob, get_aic, maxprobmodel_byclass and maxprobmodel_bymodel answer with the ranking of the current results (lowest statistic first), maxprobdG_byclass and maxprobdG_bymodel give the first uncertainty of largest probability, and every query at another uncertainty raises KeyError. get returns exactly what the separate queries return, in order. (Findings: the documented name \"dG\" of get is a KeyError and \"dg\" with a keyword a TypeError; get with cls=c returns the best class, not the class of the model; without classify after makeaics the queries by class answer for the old results; after other results were run get_nfree mixes old ranks with new results; get_nfree raises for a model without baseline; loadaics never succeeds.)", "quantifier": "all histories of the object, results, statistics, classes and uncertainties", "why_tests_cant": "The state depends on the whole history of calls; rankings and stale dictionaries can be sampled only.", "anchors": ["src/diffpy/srmise/multimodelselection.py:MultimodelSelection.makeaics", "src/diffpy/srmise/multimodelselection.py:MultimodelSelection.classify", "src/diffpy/srmise/multimodelselection.py:MultimodelSelection.get", "src/diffpy/srmise/multimodelselection.py:MultimodelSelection.get_model", "src/diffpy/srmise/multimodelselection.py:MultimodelSelection.maxprobdG_byclass", "src/diffpy/srmise/multimodelselection.py:MultimodelSelection.loadaics"]}
{"id": "C80", "title": "What PeakStability.run records and setcurrent restores", "statement": "run(err) extracts at each uncertainty in turn, with the user's data and other variables: when it returns there is one result per uncertainty, in order, holding that uncertainty, the peaks found with constant uncertainty of that size, and the spacing of their grid; when it raises (as it does for an uncertainty that is not positive) the results of the extractions before the failing one are kept. setcurrent(i) makes exactly result i the active model, on the data resampled at its spacing, and records i; with a positive qmax and Nyquist sampling this restores the grid, values, uncertainties and peaks of the extraction exactly. animate leaves the results alone and ends with the result that was current before. (Findings: when the first data point is the highest one, results may share one baseline object, which then has the parameters of the last extraction in all of them; without Nyquist sampling the restored model loses the last data point; an index that is out of range is recorded as current before IndexError is raised.)", "quantifier": "all data, variables, lists of uncertainties, optimiser behaviours, indices, histories", "why_tests_cant": "A series of searches around a black box optimiser, with state carried from one to the next.", "anchors": ["src/diffpy/srmise/peakstability.py:PeakStability.run", "src/diffpy/srmise/peakstability.py:PeakStability.setcurrent", "src/diffpy/srmise/peakstability.py:PeakStability.animate", "src/diffpy/srmise/pdfpeakextraction.py:PDFPeakExtraction.resampledata"]}
{"id": "C81", "title": "What PDFPeakExtraction.extract returns", "statement": "extract() either raises, leaving no extracted model and no extraction type, or leaves a model of type 'extract'. Its data are those in the range (qmax 0), or resampled: at the Nyquist interval pi/qmax with Nyquist sampling, or at the coarsest interval that gives more points than the model and baseline have free parameters; without Nyquist sampling supersampled. Its baseline is the given one up to parameter values, its peaks are initial peaks (all non-removable ones) and peaks of the supplied functions, with termination ripples if qmax is positive; with Nyquist sampling there are more points than free parameters. The resampling loop ends if the baseline has fewer free parameters than there are Nyquist intervals. (Findings: when pruning removes every peak the next fit estimates a single peak that never gets ripples and is exempt from these guarantees; with a baseline of too many free parameters the loop may alternate for ever between no peak and one.)", "quantifier": "all data, variables, initial peaks, optimiser and evaluator behaviours, all numbers of passes", "why_tests_cant": "A loop around a search around a black box optimiser; termination and the relation of the final data to the final model must hold for all.", "anchors": ["src/diffpy/srmise/pdfpeakextraction.py:PDFPeakExtraction.extract", "src/diffpy/srmise/pdfpeakextraction.py:PDFPeakExtraction.resampledata", "src/diffpy/srmise/modelcluster.py:ModelCluster.prune", "src/diffpy/srmise/modelcluster.py:ModelCluster.fit"]}
{"id": "C82", "title": "What PDFPeakExtraction.fit returns", "statement": "fit() either raises, leaving no extracted model and no extraction type, or leaves a model of type 'fit' for the data of the range (resampled at the Nyquist interval if qmax is not 0 and Nyquist sampling is on): its peaks are the initial peaks up to parameter values, no non-removable one missing and none added, its baseline the given one up to parameter values. Whether or not it raises, only the peak list behind initial_peaks and the baseline object behind baseline can change.", "quantifier": "all data, variables, initial peaks and optimiser behaviours", "why_tests_cant": "Must hold for every result of the optimiser and every failure.", "anchors": ["src/diffpy/srmise/pdfpeakextraction.py:PDFPeakExtraction.fit", "src/diffpy/srmise/peakextraction.py:PeakExtraction.fit_single"]}
{"id": "C83", "title": "Cutting frequencies", "statement": "cut_freq(sequence, delta) returns as many values as it is given: the sequence, with zeros appended up to the next power of two P, convolved with the average of the cosines of the components whose frequency, reckoned as 2 pi k/((P-1) delta), is below qmax. It is linear, never increases the sum of squares, returns the sequence unchanged when qmax is above every frequency, and, for a length that is a power of two, cutting twice equals cutting once. (Finding: the frequencies of a padded sequence of P values are 2 pi k/(P delta), so components below qmax can be removed.)", "quantifier": "all sequences of at least two values, all positive spacings and qmax", "why_tests_cant": "Slicing of a two-sided spectrum has boundary cases for every length, spacing and qmax.", "anchors": ["src/diffpy/srmise/peaks/terminationripples.py:TerminationRipples.cut_freq"]}
{"id": "C84", "title": "Values and derivatives with termination ripples", "statement": "On a uniform grid of at least two points, value(peak, r, rng) returns a value per point: 0 outside the range, inside it the base function filtered on a grid that contains the points of the range, is the coarsest refinement no coarser than 2 pi/(supersample qmax), and is extended on either side by extension*2 pi/qmax, but not below 0; value at a number is the filtered value there. Values are linear in the base function. On grids as fine as that, jacobian has a row per parameter, None for fixed ones, and is the derivative of the values if the base function's is. (Findings: on coarser grids jacobian is not the derivative of value; values in a range are not those of the whole grid; a sequence of one point raises ValueError, an empty range IndexError, jacobian at a number NameError.)", "quantifier": "all base functions, uniform grids, ranges, qmax, extension and supersample values", "why_tests_cant": "The refined and extended grid depends on real numbers through ceilings; agreement of value and Jacobian must hold for every function and grid.", "anchors": ["src/diffpy/srmise/peaks/terminationripples.py:TerminationRipples.value", "src/diffpy/srmise/peaks/terminationripples.py:TerminationRipples.jacobian", "src/diffpy/srmise/peaks/terminationripples.py:TerminationRipples.extend_grid"]}
{"id": "C85", "title": "A search on sensible data returns, or raises ValueError or TypeError", "statement": "On data with increasing coordinates, positive or unset effective uncertainties, a nonempty range, nonnegative resolution, some peak function, removable initial peaks and a baseline that is given, absent or estimated (estimation failing only by SrMiseEstimationError or NotImplementedError), if the optimiser fails only by SrMiseFitError (or by TypeError where the covariance of a fit does not exist), peak estimates only by SrMiseEstimationError and all qualities are numbers of one evaluator, extract_single returns, raises ValueError, or raises the TypeError of a covariance that does not exist: no index, assertion or attribute error, and no endless loop, can occur, at any depth of recursion. It always returns if covariances exist and no fit and no estimate puts a peak onto or left of the first point of its cluster. (Finding: otherwise the ValueError does occur, because the border of a cluster that reaches the end of the data is looked up by the number of the cluster.)", "quantifier": "all data, variables, objects, optimisers, evaluators, peak functions, and all recursive searches they lead to", "why_tests_cant": "The failure depends on the history of clustering, fitting, joining and recursing, with arbitrary numerics in between.", "anchors": ["src/diffpy/srmise/peakextraction.py:PeakExtraction.extract_single", "src/diffpy/srmise/peakextraction.py:PeakExtraction.defaultvars", "src/diffpy/srmise/modelcluster.py:ModelCluster.fit", "src/diffpy/srmise/modelcluster.py:ModelCluster.prune", "src/diffpy/srmise/modelcluster.py:ModelCluster.join_adjacent"]}
{"id": "C86", "title": "What makeplot draws", "statement": "makeplot draws the extracted model, or, if nothing has been extracted, the initial peaks and the baseline on the data of the range (setting unset variables to their defaults), and never changes a peak, a baseline or the extracted model. The fit is the scaled value of the model on ten times as many points as the cluster has, each peak is filled between the baseline and the baseline plus that peak, the residual is the scaled difference of data and model at the cluster's points (with mask_residual only where it is at most that number in absolute value), shifted as a whole; observed data are shown at increasing coordinates, at the points of the cluster and beyond them to the limits of the x-axis, and on evenly spaced data they are the scaled data wherever a coordinate of the data is shown. With limits left to makeplot, observed data, fit and peaks lie above the residual and below the insets by the given offsets, and the insets take their share. (Findings: beyond the cluster the points shown are not data points; a cluster of one point raises ValueError; so does a residual without any other curve; a series height without a series raises AttributeError.)", "quantifier": "all data, models, baselines, keyword arguments, series and ideal positions", "why_tests_cant": "Limits and grids are computed from extremes over all curves for every model and option; overlap depends on all of them.", "anchors": ["src/diffpy/srmise/applications/plot.py:makeplot"]}
{"id": "C87", "title": "The insets: positions compared, series of uncertainties", "statement": "comparepositions draws one bar per extracted peak within the limits, up, and one per ideal position, down, interrupted between them. dgseries draws one dot per peak of each result with scaled uncertainty within the limits and position within the limits, at (position, scaled uncertainty), in order; with uncertainties in increasing order and a nonnegative scale the default limits show all results. (Finding: default limits are the first and last result's, so for decreasing uncertainties nothing is shown; without results IndexError.)", "quantifier": "all positions, limits, heights and results", "why_tests_cant": "One dot per peak and result for every list of results, with filters by two computed ranges.", "anchors": ["src/diffpy/srmise/applications/plot.py:comparepositions", "src/diffpy/srmise/applications/plot.py:dgseries"]}
{"id": "C88", "title": "Saved analyses and the plotting command", "statement": "PeakStability.save writes a file from which PeakStability.load restores the analysis, and the plotting command plots a file saved by SrMise. (Finding: neither holds for any input: load raises for every file, leaving the results of the file and an empty extraction; save that fails has emptied the file; the plotting command, given one file, always reports that it is not a SrMise file and returns; distances to compare with can never be read.)", "quantifier": "all files, saved analyses and options", "why_tests_cant": "That no file at all can be read is a statement about all inputs.", "anchors": ["src/diffpy/srmise/peakstability.py:PeakStability.load", "src/diffpy/srmise/peakstability.py:PeakStability.save", "src/diffpy/srmise/applications/plot.py:main", "src/diffpy/srmise/applications/plot.py:readcompare"]}
{"id": "C89", "title": "The summary of extracted peaks", "statement": "writepwastr/writepwa summarize an extraction: the table that follows '#L position fwhm area' has exactly one row for each extracted peak, in order, with the peak's position, full width at half maximum and area (as the transformation to format 'pwa' gives them; for a Gaussian these are the place of the maximum, the width at half of it and the integral), and an index that leads to the peak's function in the list of functions; equal indices mean the same function. Comments are kept and cannot be mistaken for other parts. Without an extraction SrMiseError is raised; a file is only touched if the summary could be made. (Findings: the number of free parameters of the baseline is that of the variable, not of the extracted baseline; a baseline variable that is a function makes the summary impossible.)", "quantifier": "all extractions, comments, texts of numbers and names, lists of functions", "why_tests_cant": "Comments and names are arbitrary text; every extraction, with any number of peaks and functions, must come out right.", "anchors": ["src/diffpy/srmise/pdfpeakextraction.py:PDFPeakExtraction.writepwastr", "src/diffpy/srmise/pdfpeakextraction.py:PDFPeakExtraction.writepwa"]}
{"id": "C90", "title": "Histories of calls on one object", "statement": "Take any sequence of calls of clear, clearcalc, loadpdf, setdata, setvars, defaultvars, extract, fit, add_peaks and estimate_peak on one object, in any order, some of which may raise. If there is a result afterwards, it is that of the last call that makes or deletes results; that call was extract or fit, it returned, and extraction_type says which. Later calls can only have added peaks to it. An extract or fit that raises leaves no result, not even the old one. The data are those of the last call that set them. A variable keeps its value until a call names it or clears the object. After loadpdf (or clear) the object behaves exactly as a new one. extract called twice gives the same result twice. (Findings: setdata keeps the result, the uncertainties, the range and, if none is found in the new data, the qmax of the old data.)", "quantifier": "all sequences of calls with all arguments, all outcomes of the single calls, arbitrary changes of the objects behind the variables between calls", "why_tests_cant": "The number of histories is infinite; each call can raise at several points, leaving a partly changed object.", "anchors": ["src/diffpy/srmise/pdfpeakextraction.py:PDFPeakExtraction", "src/diffpy/srmise/peakextraction.py:PeakExtraction"]}
{"id": "C91", "title": "Resetting variables by name", "statement": "defaultvars(name, ...) gives the named variables the values they would get had they never been set and keeps the others: the outcome is that of defaultvars() on an object in which the named variables are not set; naming all variables gives what a new object with the same data gets; names that are no variables are ignored; without names it is defaultvars(). (Findings: a name given twice gets the default of the base class; a named baseline that is a function is estimated first, and if that raises, so does the call.)", "quantifier": "all lists of names, all states of an object with data", "why_tests_cant": "Which default is taken depends on the combination of names, variables set and data.", "anchors": ["src/diffpy/srmise/peakextraction.py:PeakExtraction.defaultvars", "src/diffpy/srmise/pdfpeakextraction.py:PDFPeakExtraction.defaultvars"]}
{"id": "C92", "title": "The list given as range", "statement": "The range of an object has the ends given and, where None is given, those of the data; an object without a range makes its own list, which no other object shares. (Findings: None in a list given by the caller is replaced in the caller's list, so that a list given to two objects has the ends of the data of the first for both; None in a tuple raises TypeError.)", "quantifier": "all lists, tuples, data, and all sharing of lists between objects", "why_tests_cant": "The effect depends on which objects share the list, which a test of one object does not show.", "anchors": ["src/diffpy/srmise/peakextraction.py:PeakExtraction.setvars", "src/diffpy/srmise/peakextraction.py:PeakExtraction.defaultvars"]}
{"id": "C93", "title": "The qmax found in the data", "statement": "find_qmax(r, y) raises ValueError for sequences of different lengths, IndexError or ValueError for fewer than 8 points, and returns otherwise. The value is 2*pi*(j+2)/(r[-1]-r[0]), where j is the last place at which the ratio of the spreads of successive runs of sine amplitudes of the interpolated data bends most; its uncertainty is 2*pi/(r[-1]-r[0]). Whatever the data, the value is positive, a whole multiple of the uncertainty and less than pi/dr by at least 3/2 of the uncertainty (so the Nyquist spacing of qmax='automatic' is larger than that of the data; data sampled at exactly the Nyquist spacing never give their own qmax). It does not depend on the origin of r or the scale of y, and is measured in the inverse of the unit of r. Only the ends of r matter.", "quantifier": "all sequences r, y of all lengths; all units", "why_tests_cant": "The value goes through a Fourier transform and a search for a maximum; limits that hold for all data cannot be tested.", "anchors": ["src/diffpy/srmise/pdfpeakextraction.py:find_qmax", "src/diffpy/srmise/pdfpeakextraction.py:stdratio", "src/diffpy/srmise/pdfpeakextraction.py:PDFPeakExtraction.setdata"]}
{"id": "C94", "title": "What a cluster shows is the sum of its parts", "statement": "value() of a cluster is, at every point of the cluster, the sum of the baseline (if any) and all peaks; value(r) the same on any r; the residual plus the value is the data; the order of the peaks does not matter for value, residual, quality. quality() is the sum of the squared deviations in units of the uncertainties plus 2k (AIC) or 2k + 2k(k+1)/(n-k-1) with n at least k+2 (AICc), where k counts the free parameters of the peaks (all of them with count_fixed) and none of the baseline; with kshift below -k it raises SrMiseModelEvaluatorError. plottable() draws the data and the whole, or each peak on the baseline. addexternalpeaks inserts the peaks in order and adds them to the data: residuals do not change, and AIC rises by twice the number of their parameters.", "quantifier": "all clusters, baselines, peaks, functions, data, evaluators, orders of peaks", "why_tests_cant": "Sums over all points and parts for arbitrary functions; an order or a point that is not tested could differ.", "anchors": ["src/diffpy/srmise/modelcluster.py:ModelCluster.value", "src/diffpy/srmise/modelcluster.py:ModelCluster.valuebl", "src/diffpy/srmise/modelcluster.py:ModelCluster.residual", "src/diffpy/srmise/modelcluster.py:ModelCluster.quality", "src/diffpy/srmise/modelcluster.py:ModelCluster.plottable", "src/diffpy/srmise/modelcluster.py:ModelCluster.addexternalpeaks", "src/diffpy/srmise/modelevaluators/aic.py:AIC.evaluate"]}
{"id": "C95", "title": "The search with the numerics of the code", "statement": "With the code's own quality (AIC or AICc), least-squares wrapper, clean-up and estimates - and any optimiser, argsort, functions and parameter estimates - extraction ends with ValueError, with TypeError or with one cluster over exactly the data of the range, whose peaks are initial peaks or of the supplied functions and whose quality is the squared deviation of baseline and peaks plus the penalty. A fit that is kept does not raise this cost, and a fit that is not kept changes nothing; augment does not raise it; prune leaves the peaks or lowers it (fits converging, all parameters free). In prune, setting distant peaks aside and shifting the parameter count gives exactly the quality of the whole remaining model on all data, and the shift is never negative. Estimated peaks are removable with all parameters free. fit(justify=True) gives up a single peak exactly if there are points enough for one more peak of the smallest supplied function and its penalty is below the deviation. (Findings: the ValueError does occur with peaks estimated within their data; a singular covariance in the last fit raises TypeError and loses all peaks found.)", "quantifier": "all data, initial peaks, functions, optimisers (any evaluations, any result, any failure), evaluators", "why_tests_cant": "The search makes unboundedly many fits with results that depend on the optimiser; no test covers all optimisers.", "anchors": ["src/diffpy/srmise/modelcluster.py:ModelCluster.fit", "src/diffpy/srmise/modelcluster.py:ModelCluster.prune", "src/diffpy/srmise/modelcluster.py:ModelCluster.augment", "src/diffpy/srmise/modelcluster.py:ModelCluster.quality", "src/diffpy/srmise/modelcluster.py:ModelCluster.estimatepeak", "src/diffpy/srmise/peakextraction.py:PeakExtraction.extract_single"]}
{"id": "C96", "title": "The report of a covariance object", "statement": "str() of a covariance object that has a model and its matrix is one line per part with one entry 'value (uncertainty)' per parameter, in order, where value is the parameter of that part and uncertainty the root of its variance (0 for a fixed one; after transform, those of the transformed parameters); prettypar gives the single entries, get the pair of numbers. Without model or matrix both give the text 'Model and/or Covariance matrix undefined.' and do not raise. (Finding: an object used for a second model still accepts the designations of parameters of the first one and reports for them parameters of other parts.)", "quantifier": "all models, matrices, formats and designations; all previous uses of the object", "why_tests_cant": "Numbering is built by two nested loops over parts of any size and survives in the object; every model and history must be numbered right.", "anchors": ["src/diffpy/srmise/modelcluster.py:ModelCovariance.__str__", "src/diffpy/srmise/modelcluster.py:ModelCovariance.prettypar", "src/diffpy/srmise/modelcluster.py:ModelCovariance.get", "src/diffpy/srmise/modelcluster.py:ModelCovariance.setcovariance"]}
{"id": "C97", "title": "The covariance returned by fit_single and extract_single", "statement": "Asking for a covariance does not change a fit. After a fit with a free parameter that is kept, the covariance object describes the parts as they were fitted (peaks, then the baseline if it took part): the values of the parameters in the requested format, and for every two parameters the optimiser's covariance times the squared deviation over (points - free parameters), 0 for fixed ones, carried over by the gradients of the change of format. The peaks of the result are among these parts; they are exactly these, numbered alike, if none was cleaned up and the fitted positions are in order. If no fit took place, or it raised inside, or nothing was free, the object stays as it was, and for the new object of fit_single and extract_single the report says undefined. fit_single and extract_single return the cluster of C72 and C68 and the covariance of their last fit. (Findings: after a fit that is not kept the covariance describes the rejected parameters although the result has the old ones; when the last fit changes the order of peaks, or removes one, the numbering of the covariance is not that of the result.)", "quantifier": "all clusters, optimisers (any result and matrix), functions, formats, options", "why_tests_cant": "Which of the outcomes applies depends on the optimiser and on quality comparisons; the matrix formula must hold for any number of parts.", "anchors": ["src/diffpy/srmise/modelcluster.py:ModelCluster.fit", "src/diffpy/srmise/modelparts.py:ModelParts.fit", "src/diffpy/srmise/peakextraction.py:PeakExtraction.extract_single", "src/diffpy/srmise/peakextraction.py:PeakExtraction.fit_single", "src/diffpy/srmise/modelcluster.py:ModelCovariance.setcovariance", "src/diffpy/srmise/modelcluster.py:ModelCovariance.transform"]}
{"id": "C98", "title": "The peaks of a result have the values their functions need", "statement": "If the initial peaks and the baseline have as many values and flags as their functions have parameters, then so have all peaks and the baseline that extract_single (at any depth), fit_single, PDFPeakExtraction.extract and fit leave, whatever was estimated, fitted, scaled at a boundary, cleaned up, joined, pruned and replaced by a function with ripples. Peaks that were not given are removable, with all parameters free and a function that can be replaced.", "quantifier": "all data, initial peaks, baselines, peak functions that keep the number of parameters in a change of format, optimisers", "why_tests_cant": "The peaks pass through arbitrarily many fits, conversions and recursions; a single one that drops or adds a value is enough.", "anchors": ["src/diffpy/srmise/peakextraction.py:PeakExtraction.extract_single", "src/diffpy/srmise/peakextraction.py:PeakExtraction.fit_single", "src/diffpy/srmise/pdfpeakextraction.py:PDFPeakExtraction.extract", "src/diffpy/srmise/pdfpeakextraction.py:PDFPeakExtraction.fit", "src/diffpy/srmise/modelcluster.py:ModelCluster.fit", "src/diffpy/srmise/modelcluster.py:ModelCluster.estimatepeak"]}
{"id": "C99", "title": "With the peak functions of the package every reported peak is a proper one", "statement": "With Gaussian and GaussianOverR (with or without termination ripples) every peak that extract_single, fit_single, PDFPeakExtraction.extract and fit leave is reported, in the format \"pwa\", as three numbers: its position, a width between 0 and the maxwidth of its function, an area that is not negative; these three numbers determine the curve of the peak, which is nowhere negative. estimatepeak fails exactly when fewer than three points of the cluster are above the baseline; else it makes a peak of the first function whose position lies between two such points and which is there as high as the highest point above the baseline. match_at(x, y) with 0 < y <= the sum of free peaks that do not have their maximum at x makes that sum y, and every peak keeps the place and height of its maximum.", "quantifier": "all data, initial peaks of these functions, optimisers (whatever they return), maximal widths, depths of recursion", "why_tests_cant": "What the optimiser returns is unbounded (any internal width, any sign of the area), and passes through scaling, joining, pruning and conversions before it is reported.", "anchors": ["src/diffpy/srmise/peakextraction.py:PeakExtraction.extract_single", "src/diffpy/srmise/peakextraction.py:PeakExtraction.fit_single", "src/diffpy/srmise/pdfpeakextraction.py:PDFPeakExtraction.extract", "src/diffpy/srmise/pdfpeakextraction.py:PDFPeakExtraction.fit", "src/diffpy/srmise/modelcluster.py:ModelCluster.estimatepeak", "src/diffpy/srmise/peaks/gaussian.py:Gaussian", "src/diffpy/srmise/peaks/gaussianoverr.py:GaussianOverR", "src/diffpy/srmise/peaks/terminationripples.py:TerminationRipples"]}
{"id": "C100", "title": "The clustering does not depend on the units of the data", "statement": "If the coordinates are replaced by a*x+b (a > 0), the resolution by a times itself, and the values by any strictly increasing function of them, then after the same constructor call and the same calls of next, reset_clusters and combine_clusters (whatever they raised) the object shows the same clusters, last point, last cluster, full clusters, slices and adjacent groups, and find_nearest_cluster and find_nearest_cluster2 name the same cluster at the distance in the new unit.", "quantifier": "all data, resolutions, a > 0, b, strictly increasing functions, series of calls, queries", "why_tests_cant": "It relates two executions, for every pair of units and every series of calls; a test compares one pair.", "anchors": ["src/diffpy/srmise/dataclusters.py:DataClusters.__next__", "src/diffpy/srmise/dataclusters.py:DataClusters.find_nearest_cluster", "src/diffpy/srmise/dataclusters.py:DataClusters.find_nearest_cluster2", "src/diffpy/srmise/dataclusters.py:DataClusters.combine_clusters", "src/diffpy/srmise/dataclusters.py:DataClusters.reset_clusters", "src/diffpy/srmise/dataclusters.py:DataClusters._setdata"]}
{"id": "C101", "title": "What the boundaries of the clusters are, and that they cannot be drawn", "statement": "cluster_boundaries() of an object with data returns each number once in increasing order: the mid-points, in coordinate and in value, between a cluster end and the data point next to it, mixed in one list, and one NaN if a cluster begins at the first of several points. Because these are not pairs, plot() always raises IndexError, and animate() does for more than one point, leaving the object as after reset_clusters() and one step; only with one point does it return, and then it restores the state.", "quantifier": "all data, states reached by any calls", "why_tests_cant": "animate promises to restore whatever state the object has; which state that is depends on the history.", "anchors": ["src/diffpy/srmise/dataclusters.py:DataClusters.cluster_boundaries", "src/diffpy/srmise/dataclusters.py:DataClusters.plot", "src/diffpy/srmise/dataclusters.py:DataClusters.animate"]}
{"id": "C102", "title": "The covariance returned by PDFPeakExtraction.extract and fit", "statement": "extract() ends, raises and leaves the model of C81 whether or not the covariance is looked at; the covariance object it returns is undefined (no fit took place, or nothing was free), or describes the parts of the last fit to the data of the result: their values in the requested format and, for every two parameters, the optimiser's covariance scaled by the squared deviation over (points - free parameters) and carried over by the gradients of the change of format; if that fit was kept, the peaks of the result are among these parts, and are exactly these in this order if none was removed and the positions are in order. fit() returns likewise the covariance of the initial peaks and the baseline. (Finding: after a fit that is taken back the object returned has the rejected parameters.)", "quantifier": "all data, variables, initial peaks and baselines with as many values as parameters, peak functions, optimisers, resamplings, depths of recursion", "why_tests_cant": "Which fit is the last, whether it is kept, and the matrix for any number of parts depend on the optimiser's answers.", "anchors": ["src/diffpy/srmise/pdfpeakextraction.py:PDFPeakExtraction.extract", "src/diffpy/srmise/pdfpeakextraction.py:PDFPeakExtraction.fit", "src/diffpy/srmise/modelcluster.py:ModelCluster.fit", "src/diffpy/srmise/modelcluster.py:ModelCovariance.setcovariance"]}
{"id": "C103", "title": "What a run of the program srmise leaves", "statement": "If srmise ends without an exception, the extraction it was asked for was performed, the file of --save has the complete text of the extraction after it, the file of --pwa its complete summary (the summary if both are the same file), every other file is as before, and the covariance, the extraction and the covariance again were printed (the extraction only, without an extraction). Whatever happens, a file is as before or has one of these complete texts; if the extraction raises, every file is as before and nothing is printed. (Findings: the messages \"Could not save ...\" can never be printed, because their handlers wait for an exception that writing does not raise; a --save file that cannot be opened ends the program with OSError after a successful extraction, with no summary and no peaks printed; --pwa with --no-extract ends with SrMiseError before anything is printed.)", "quantifier": "all options, initial contents of all files, results of the extraction, files that cannot be opened", "why_tests_cant": "It ranges over every file, every combination of options and every point at which a step raises.", "anchors": ["src/diffpy/srmise/applications/extract.py:main", "src/diffpy/srmise/peakextraction.py:PeakExtraction.write", "src/diffpy/srmise/pdfpeakextraction.py:PDFPeakExtraction.writepwa"]}
{"id": "C104", "title": "The extracted peaks do not depend on the units of the data", "statement": "If the coordinates are multiplied by a > 0 and the intensities by k > 0, and with them the cluster resolution, the range, the uncertainties, the baseline, the initial peaks and the peak functions (maximal width), then extract_single, fit_single, estimate_peak and add_peaks raise the same exceptions or give the same result in the new units: the same number of peaks in the same order with the same flags and borders, positions and widths times a, areas of Gaussians times a k (of Gaussian/r times a squared k); the quality is the same number and all default variables are the converted ones. This needs an optimiser that takes the same steps in both units, as MINPACK's does. (Finding: it fails for peaks whose parameters were given as integers, which are truncated in the unit of the user.)", "quantifier": "all data, variables, initial peaks, baselines, factors a, k > 0, optimisers with the same steps in both units, depths of recursion", "why_tests_cant": "It relates two executions for every pair of units; an absolute constant at any of hundreds of comparisons would break it for some data only.", "anchors": ["src/diffpy/srmise/peakextraction.py:PeakExtraction.extract_single", "src/diffpy/srmise/peakextraction.py:PeakExtraction.fit_single", "src/diffpy/srmise/peakextraction.py:PeakExtraction.estimate_peak", "src/diffpy/srmise/peakextraction.py:PeakExtraction.add_peaks", "src/diffpy/srmise/peakextraction.py:PeakExtraction.defaultvars", "src/diffpy/srmise/modelcluster.py:ModelCluster.quality", "src/diffpy/srmise/peaks/gaussian.py:Gaussian", "src/diffpy/srmise/peaks/gaussianoverr.py:GaussianOverR"]}
{"id": "C105", "title": "What the user holds fixed stays fixed", "statement": "Every peak in the result of extract_single (at any depth), fit_single, PDFPeakExtraction.extract and fit is, each from another one, an initial peak or a new one, changed in the values of its free parameters only; the non-removable initial peaks are exactly the non-removable peaks of the result; the baseline is the given one. Wherever the initial peak or the baseline holds a value fixed, the result has the same value up to what the function itself does not distinguish: exactly the same for functions that do not normalise their parameters (baselines), and for Gaussian and GaussianOverR (with or without ripples) the same reported position, width and area. (A fixed negative area is stored as a positive one afterwards.)", "quantifier": "all data, initial peaks with any flags, baselines, optimisers, functions, depths of recursion", "why_tests_cant": "The value passes through arbitrarily many fits, scalings at borders, joins, prunings and recursions chosen by the data; one write to a fixed entry anywhere would break it.", "anchors": ["src/diffpy/srmise/peakextraction.py:PeakExtraction.extract_single", "src/diffpy/srmise/peakextraction.py:PeakExtraction.fit_single", "src/diffpy/srmise/pdfpeakextraction.py:PDFPeakExtraction.extract", "src/diffpy/srmise/pdfpeakextraction.py:PDFPeakExtraction.fit", "src/diffpy/srmise/modelparts.py:ModelPart.update", "src/diffpy/srmise/peaks/base.py:Peak.scale_at", "src/diffpy/srmise/modelcluster.py:ModelCluster.fit"]}
{"id": "C106", "title": "A PDF in other units", "statement": "With r multiplied by a > 0, G(r) (and its uncertainties) by k > 0, qmax divided by a, cres and range multiplied by a, and initial peaks, baseline and given peak functions converted: find_qmax gives the old value and uncertainty divided by a; setdata, resample, and TerminationRipples' value and Jacobian give the converted results; PDFPeakExtraction.extract and fit end with the same exception or with the converted object: the same peaks in the same order with converted parameters, the same kind of extraction, the same variables. Exception: if no peak function is given, the default GaussianOverR(0.7) has an absolute maximum width, which is not converted.", "quantifier": "all data, variables, units, peak functions, numbers of resamplings, optimisers that take the same steps in both units", "why_tests_cant": "A constant with a unit anywhere in the sampling, the error scaling, the Fourier filter or the loop around them would show only for particular data; tests use one unit.", "anchors": ["src/diffpy/srmise/pdfpeakextraction.py:PDFPeakExtraction.extract", "src/diffpy/srmise/pdfpeakextraction.py:PDFPeakExtraction.fit", "src/diffpy/srmise/pdfpeakextraction.py:PDFPeakExtraction.setdata", "src/diffpy/srmise/pdfpeakextraction.py:PDFPeakExtraction.defaultvars", "src/diffpy/srmise/pdfpeakextraction.py:PDFPeakExtraction.resampledata", "src/diffpy/srmise/pdfpeakextraction.py:PDFPeakExtraction.errorscale", "src/diffpy/srmise/pdfpeakextraction.py:find_qmax", "src/diffpy/srmise/pdfpeakextraction.py:resample", "src/diffpy/srmise/pdfpeakextraction.py:stdratio", "src/diffpy/srmise/peaks/terminationripples.py:TerminationRipples.value", "src/diffpy/srmise/peaks/terminationripples.py:TerminationRipples.jacobian"]}
{"id": "C107", "title": "Extraction leaves the caller's objects alone and can be repeated", "statement": "PDFPeakExtraction.extract and PeakExtraction.extract_single, whether they return or raise, change nothing of the initial peaks and of the list of peak functions the caller gave, and of the baseline at most the values of free parameters. If the baseline has no free parameters, or some point of the (resampled) data is higher above baseline and initial peaks than the first point, no object of the caller is changed at all; then calling extract again, any number of times, gives the same result or the same exception. (Findings: if the first point is the highest one, the caller's own baseline is fitted: a second extraction finds other peaks; and if the last fit is rejected, the caller's baseline is left at the rejected values, though the result has the old ones.)", "quantifier": "all data, variables, initial peaks, baselines, optimisers, numbers of resamplings, numbers of repetitions", "why_tests_cant": "Which of many clusters keeps the caller's baseline object through copying, joining, recursive searches and failing fits depends on the data; a test sees one path.", "anchors": ["src/diffpy/srmise/pdfpeakextraction.py:PDFPeakExtraction.extract", "src/diffpy/srmise/peakextraction.py:PeakExtraction.extract_single", "src/diffpy/srmise/modelcluster.py:ModelCluster.__init__", "src/diffpy/srmise/modelcluster.py:ModelCluster.fit", "src/diffpy/srmise/modelcluster.py:ModelCluster.join_adjacent", "src/diffpy/srmise/modelparts.py:ModelParts.fit"]}
{"id": "C108", "title": "The order of the initial peaks does not matter", "statement": "If the same initial peaks (no two at the same position) are given in another order, extract_single and PDFPeakExtraction.extract raise the same exception or find the same peaks, baseline and quality: always if argsort is stable, and otherwise if no peak is found exactly at the position of an initial peak or of another one.", "quantifier": "all data, variables, lists of initial peaks and their permutations, baselines, optimisers, depths of recursion, numbers of resamplings", "why_tests_cant": "It relates two executions for every permutation of every list; a place where the list is indexed before it is sorted would show only for some orders and data.", "anchors": ["src/diffpy/srmise/peakextraction.py:PeakExtraction.extract_single", "src/diffpy/srmise/pdfpeakextraction.py:PDFPeakExtraction.extract", "src/diffpy/srmise/modelcluster.py:ModelCluster.addexternalpeaks", "src/diffpy/srmise/modelcluster.py:ModelCluster.replacepeaks", "src/diffpy/srmise/peaks/base.py:Peaks.argsort"]}
{"id": "C109", "title": "Restricting the range is restricting the data", "statement": "With cres, peak functions and effective uncertainties given, extract_single and fit_single with a range [a, b] that contains at least one point do exactly what they do with the data points in [a, b] (and their uncertainties) and no range: the same result or exception, the same effect on the caller's objects. The same holds of PDFPeakExtraction.extract with qmax 0 and of fit with qmax 0 or without Nyquist sampling. (Finding: with qmax > 0 the data outside the range do matter, since all data are resampled.)", "quantifier": "all data, ranges (also with one end open), variables, optimisers, depths of recursion", "why_tests_cant": "Data outside the range must not leak through any estimate, slice or boundary test; that is a relation between two runs for every range.", "anchors": ["src/diffpy/srmise/peakextraction.py:PeakExtraction.extract_single", "src/diffpy/srmise/peakextraction.py:PeakExtraction.fit_single", "src/diffpy/srmise/peakextraction.py:PeakExtraction.getrangeslice", "src/diffpy/srmise/peakextraction.py:PeakExtraction.defaultvars", "src/diffpy/srmise/pdfpeakextraction.py:PDFPeakExtraction.extract", "src/diffpy/srmise/pdfpeakextraction.py:PDFPeakExtraction.fit"]}
{"id": "C110", "title": "What PeakExtraction.plot draws", "statement": "After a successful extract_single or fit_single, plot() draws exactly the data of the range and, for each peak of the result in order, the baseline plus that peak at these points, and changes nothing; without a result it first completes the variables and draws the initial peaks on the baseline in the same way, changing nothing but unset variables, or raises what defaultvars raises. With any keyword it draws one curve, the baseline plus all peaks. (Finding: that includes joined=False; the keywords are not passed on.)", "quantifier": "all data, ranges, variables, peaks, baselines, optimisers, keywords", "why_tests_cant": "The curves must belong to the right points for every range, slice and number of peaks.", "anchors": ["src/diffpy/srmise/peakextraction.py:PeakExtraction.plot", "src/diffpy/srmise/modelcluster.py:ModelCluster.plottable", "src/diffpy/srmise/peakextraction.py:PeakExtraction.getrangeslice"]}
{"id": "C111", "title": "A cluster written on its own can be read on its own", "statement": "ModelCluster.writestr() without pfbaselist and/or blfbaselist writes the functions the cluster uses with it (exactly if it has a baseline and peak functions, each function can be written with that list, and there are enough values and uncertainties), and factory() without the same lists rebuilds them, each after its base: the cluster comes back with the same peaks, baseline, peak functions, slice and evaluator and the data as formatted by %g; what shared a function shares it again, what did not does not. (Findings: a cluster without a baseline, or without peak functions, raises AttributeError or TypeError although there is a text for it; with the package as it is the evaluator is never found and reading ends in AttributeError.)", "quantifier": "all clusters, functions with or without bases, orders of the list of functions, given and missing lists, formats of numbers", "why_tests_cant": "The round trip must hold for every cluster and every order in which the functions happen to be written.", "anchors": ["src/diffpy/srmise/modelcluster.py:ModelCluster.writestr", "src/diffpy/srmise/modelcluster.py:ModelCluster.factory", "src/diffpy/srmise/basefunction.py:BaseFunction.factory"]}
{"id": "C112", "title": "What clusters that share data and baselines do to each other", "statement": "Clusters made with the same arrays, copied, or joined share their arrays, and, unless copied, their baseline. After any series of calls on any of them (including calls that raise): the r_cluster, y_cluster and error_cluster of every cluster show its slice of its arrays; abscissae and uncertainties are as they were, and to the ordinates exactly the peaks given to addexternalpeaks have been added, on every point and for every cluster with these ordinates; a cluster whose baseline no other cluster has keeps attributes and value whatever is called on the others; a copy has the value of its original, its own baseline, and working on it leaves the original alone; a cluster marked never_fit has no point above its uncertainty over the baseline as long as no external peaks were added and no baseline fitted. (Findings: external peaks added to one cluster are missing from the model of all others on the same data, whose residual grows by them; never_fit is not renewed then; a fit of a shared baseline changes it for the other clusters, even if the fit is rejected.)", "quantifier": "all numbers of clusters, arrays and baselines, all ways they are shared, all series of calls, all outcomes of the calls, all worlds (optimiser, estimates, evaluators)", "why_tests_cant": "Sharing shows only in series of calls on several clusters; the number of series, and of ways to share, is unbounded.", "anchors": ["src/diffpy/srmise/modelcluster.py:ModelCluster.__init__", "src/diffpy/srmise/modelcluster.py:ModelCluster.addexternalpeaks", "src/diffpy/srmise/modelcluster.py:ModelCluster.join_adjacent", "src/diffpy/srmise/modelcluster.py:ModelCluster.change_slice", "src/diffpy/srmise/modelcluster.py:ModelCluster.fit"]}
{"id": "C113", "title": "A cluster comes back with its functions as they were built on one another", "statement": "ModelCluster.writestr() of a cluster whose functions are any objects built on one another (safefunctionlist lists them) never fails for lack of a base: it raises exactly if there is no baseline, no peak functions, or too few ordinates or uncertainties. factory() makes of it new objects of the same classes, with the same metadata and, all the way down, the bases that stand for their bases; peaks, baseline and peak functions refer to these. What was one object \u2014 also a base that two functions share \u2014 is one object again, what were two are two.", "quantifier": "all clusters, all functions and bases of any depth, shared or not, all orders in which Python's set gives them, all texts of class, module and metadata that Python can read back", "why_tests_cant": "That order, numbering of bases and rebuilding fit together for every forest of functions is a statement over unboundedly many shapes.", "anchors": ["src/diffpy/srmise/modelcluster.py:ModelCluster.writestr", "src/diffpy/srmise/modelcluster.py:ModelCluster.factory", "src/diffpy/srmise/basefunction.py:BaseFunction.safefunctionlist", "src/diffpy/srmise/basefunction.py:BaseFunction.writestr", "src/diffpy/srmise/basefunction.py:BaseFunction.factory"]}
{"id": "C114", "title": "Fitting again does not make the result worse, while the objects hold it", "statement": "PDFPeakExtraction.fit() works on the user's list of initial peaks and baseline object. Over any number of fits, whatever they end with, the variables keep the values of the first, and nothing but these two objects changes. After a fit that ends normally, either the result are the peaks and the baseline as they were (the fit was rejected), or the baseline object holds the baseline of the result and the list all peaks of the result (exactly these, if no parameter of the baseline is free). In a history of fits after each of which the objects hold the result, every result covers the same data, and none costs more than any before it.", "quantifier": "all data, variables, initial peaks, baselines, all numbers of calls, all optimisers (whatever they return)", "why_tests_cant": "Histories of calls are unbounded, and the optimiser is arbitrary.", "anchors": ["src/diffpy/srmise/pdfpeakextraction.py:PDFPeakExtraction.fit", "src/diffpy/srmise/peakextraction.py:PeakExtraction.fit_single", "src/diffpy/srmise/modelcluster.py:ModelCluster.fit"]}
{"id": "C115", "title": "Converting the parameters of a model in place", "statement": "ModelParts.transform(in_format, out_format) goes through the parts in order: each gets the parameters its function makes of its own, or, if the function refuses with ValueError (a format it does not know), stays as it was; nothing else of a part changes, none is added or lost. It fails exactly if the function of some part raises another exception: that is raised, the parts before have been converted, this one and the later ones have not. A misspelt format is no error and changes nothing. For peaks of the package with a baseline, 'internal' to 'pwa' leaves in every peak position, width and area and the baseline as it was, and back to 'internal' gives peaks for which the same numbers are read and with the same curves. (Findings: a width that is too large stops the conversion half-way; in between, values and texts of the model take the numbers for internal ones; a part that is listed twice is converted twice.)", "quantifier": "all models, formats, functions (whatever their conversions raise), parameters, lists with repeated parts", "why_tests_cant": "How many parts are converted when one refuses or fails, for every length, order and sharing, is not settled by examples.", "anchors": ["src/diffpy/srmise/modelparts.py:ModelParts.transform", "src/diffpy/srmise/basefunction.py:BaseFunction.transform_parameters", "src/diffpy/srmise/peaks/gaussian.py:Gaussian", "src/diffpy/srmise/peaks/gaussianoverr.py:GaussianOverR"]}
{"id": "C116", "title": "When two clusterings are equal", "statement": "== of two DataClusters without NaN holds exactly if data, resolution, order, clusters and progress are the same; equal objects answer every query alike, and do so and stay equal after the same calls of next, reset_clusters and combine_clusters, whatever these raise. An object that holds NaN is equal to none, not to itself. After any histories two objects of the same data are equal once both are reset. (Finding: a reset object is not equal to a new one of the same data, though it proceeds as one; once next has clustered a point of both they are equal and remain so.)", "quantifier": "all data, resolutions, orders of ties, histories of calls on both objects", "why_tests_cant": "Equality has to be compatible with every history of calls on two objects.", "anchors": ["src/diffpy/srmise/dataclusters.py:DataClusters.__eq__", "src/diffpy/srmise/dataclusters.py:DataClusters.reset_clusters", "src/diffpy/srmise/dataclusters.py:DataClusters.__next__"]}
{"id": "C117", "title": "What is printed of a result", "statement": "str(model) has one line per part, in order, with what the function of the part makes of its parameters in its default output format; it raises what the first function raises that refuses. str(cluster) gives its slice, the quality (sum of squared weighted deviations of the data from baseline and peaks plus the penalty for the free parameters), the parameters of the baseline and the peaks; for the cluster that extract_single returns or fit_single leaves these are deviations from the data of the requested range. str(extraction) has the initial peaks and the baseline of the variables and then the text of the extracted cluster, or that there is none. With the peak functions of the package and any initial peaks of these, everything found can be printed, and each line is position, full width at half maximum and area of the peak, the width at most the limit of its function. (Finding: the text takes parameters for internal ones; after transform to 'pwa' (C115) another width is printed.)", "quantifier": "all models, clusters, extractions, functions whose values are computed point by point, data, ranges, evaluators, all runs of extract_single and fit_single", "why_tests_cant": "The printed numbers must be those of the curve for every result of every search.", "anchors": ["src/diffpy/srmise/modelparts.py:ModelParts.__str__", "src/diffpy/srmise/modelparts.py:ModelPart.__str__", "src/diffpy/srmise/modelcluster.py:ModelCluster.__str__", "src/diffpy/srmise/peakextraction.py:PeakExtraction.__str__"]}
{"id": "C118", "title": "A peak built from numbers, and a printed result typed in again", "statement": "function.actualize(pars, in_format, free, removable, static_owner) gives a part exactly if the function converts pars to as many internal parameters as it has and free (all free if missing) has as many flags; the part then has these, and else what the conversion raises or ValueError is raised. A peak of the package built from position, width and area in format 'pwa' (or mean, standard deviation and area in 'mu_sigma_area') is read and printed with these numbers (absolute values), can be given to a search as an initial peak, and its curve is the bell of these numbers; a width above the limit is refused with SrMiseTransformationError. What is printed of any peaks of the package, in particular of a result of a search, makes when typed in (format 'pwa', same functions) peaks of which the same is printed and with the same curves. (Findings: without a format the numbers are taken for internal ones, though what is printed is 'pwa'; a width below minus the limit gives NaN instead of an error; typed-in peaks are free and removable whatever the printed ones were.)", "quantifier": "all functions, numbers, formats, flags, models of peaks of the package, results of all searches", "why_tests_cant": "The round trip through what is printed must hold for every real parameter of every result.", "anchors": ["src/diffpy/srmise/peaks/base.py:PeakFunction.actualize", "src/diffpy/srmise/baselines/base.py:BaselineFunction.actualize", "src/diffpy/srmise/modelparts.py:ModelPart.__init__", "src/diffpy/srmise/basefunction.py:BaseFunction.transform_parameters", "src/diffpy/srmise/peaks/gaussian.py:Gaussian", "src/diffpy/srmise/peaks/gaussianoverr.py:GaussianOverR"]}
{"id": "C119", "title": "The file of an extraction holds what was set and found", "statement": "What PeakExtraction.writestr returns, and write puts into the file, holds, under its headings, everything: each data column that is set, under its name, with its values as formatted by %g; the indices of the peak functions in the list written, the resolution, the evaluator's name, the range, the extraction type and the metadata; the texts of all functions in use under their numbers; the initial peaks and the baseline, from which the factories make the same objects again; and the text of the extracted cluster, from which ModelCluster.factory makes the cluster again if the evaluator is found. (Although readstr cannot read it, C78, nothing is lost. Finding: a column longer than the last one is cut silently.)", "quantifier": "all extractions for which writestr returns, all functions and metadata whose texts do not start lines with #, all numbers of points, peaks and functions", "why_tests_cant": "That no line of any function, peak or number can be taken for a heading, and that rows and columns fit for every combination of columns, is a statement over unboundedly many texts.", "anchors": ["src/diffpy/srmise/peakextraction.py:PeakExtraction.writestr", "src/diffpy/srmise/peakextraction.py:PeakExtraction.write", "src/diffpy/srmise/peakextraction.py:PeakExtraction.writemetadata", "src/diffpy/srmise/modelparts.py:ModelPart.writestr"]}
{"id": "C120", "title": "Parts of a model, and its covariance", "statement": "Indexing a model works as on a list and keeps the objects: model[a:b:c] and, for b and c left out or numbers, model[a, b] are models holding the same part objects at exactly the positions of the slice, forwards for a positive step and backwards for a negative one; model[:k] and model[k:] together are the whole model for every integer k; model[i] is the part itself, and IndexError exactly outside -len..len-1; a step of zero is ValueError, a tuple of another length TypeError. (Finding: model.covariance() never returns a matrix, only None, although documented to; it raises ValueError or IndexError for the first keyword that is not one character followed by the number of a part, and does not check that the character is f.)", "quantifier": "all models, all integers as index, start, end and step (also left out), all keywords and formats", "why_tests_cant": "Which positions a slice has is a statement over all lengths and all integers, negative and beyond the ends included; tests use a few.", "anchors": ["src/diffpy/srmise/modelparts.py:ModelParts.__getitem__", "src/diffpy/srmise/modelparts.py:ModelParts.covariance"]}
{"id": "C121", "title": "Animations of a selection", "statement": "animate_classprobs never changes a result and shows at every uncertainty the peaks of a model of the class that is the best there, namely the best of that class at the uncertainty at which the class became the best, in order of position. (Findings: the best model of that class may have changed since and the old one is still shown; the baseline shown is always that of the first model. animate_probs overwrites a result: the cluster it shows holds the very list of the model of the first result shown, a, so that whenever another model becomes the best its peaks replace those of result a for good; no other result is changed. When a is the best again, the peaks of the other model are still shown, with the baseline of a.)", "quantifier": "all results, uncertainties, rankings, classes and orders in which the best model or class changes", "why_tests_cant": "What is shown depends on the whole history of changes of the best model; the overwritten result shows only after the best has changed, and wrongly shown models only after it has changed back.", "anchors": ["src/diffpy/srmise/multimodelselection.py:MultimodelSelection.animate_probs", "src/diffpy/srmise/multimodelselection.py:MultimodelSelection.animate_classprobs", "src/diffpy/srmise/modelcluster.py:ModelCluster.replacepeaks", "src/diffpy/srmise/peakstability.py:PeakStability.setcurrent"]}
{"id": "C122", "title": "The plot of class probabilities", "statement": "plot3dclassprobs(dGs, classes, probfilter, ...) never returns with a Python whose zip makes an iterator, which is every Python the package supports: it raises for every selection, all uncertainties, classes, ranges of probabilities and scales, whatever the drawing does (finding: the line that closes the polygons needs a list). With a zip that makes a list a call that returns has drawn at least one class, and, in the order asked for, exactly the classes whose highest probability over dGs is in probfilter, bounds included, each as the closed polygon under its own probabilities at dGs * scale.", "quantifier": "all selections, uncertainties, lists of classes, ranges, scales, and all behaviours of the drawing library", "why_tests_cant": "That no choice of keywords avoids the exception, and that the filter holds for all probabilities, are statements over all selections and keywords.", "anchors": ["src/diffpy/srmise/multimodelselection.py:MultimodelSelection.plot3dclassprobs"]}
