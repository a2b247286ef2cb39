import json
P=[]
def p(id,title,statement,quant,why,anchors):
    P.append(dict(id=id,title=title,statement=statement,quantifier=quant,why_tests_cant=why,anchors=anchors))
S="src/diffpy/srmise/"
DC=S+"dataclusters.py:DataClusters."
p("C01","Clusters are always sorted, disjoint and in range",
"After any sequence of the DataClusters calls next(), combine_clusters(), reset_clusters(), starting from a freshly built object whose x is non-decreasing, the cluster table is non-empty and each row [lo,hi] satisfies lo<=hi<len(x), with hi of each row strictly smaller than lo of the next.",
"all data sets (any length, any y, any resolution >= 0, any tie order of the sort), all finite call histories",
"The call history is unbounded and the data arbitrary; tests see a handful of traces.",
[DC+"__next__",DC+"combine_clusters",DC+"reset_clusters",DC+"_setdata"])
p("C02","Every successful next() clusters a new point and forgets none",
"Whenever next() returns, the point it reports (lastpoint_idx) was in no cluster before the call, is in a cluster afterwards, every previously clustered point stays clustered, and no other unclustered point has a larger y. With strictly increasing x, next() raises StopIteration only when every point is clustered. A point within res of the nearest cluster joins it; a point farther away starts its own.",
"all reachable clustering states",
"Must hold in each reachable state, not only along a few test traces.",
[DC+"__next__"])
p("C03","makeclusters terminates and clusters every point exactly once",
"Iterating a non-empty DataClusters with strictly increasing x stops after at most len(x)-1 steps, with every index in exactly one cluster; no state after DONE can be iterated further.",
"all non-empty data sets with strictly increasing x, all resolutions",
"Termination and completeness range over all data.",
[DC+"__next__",DC+"makeclusters",DC+"__iter__"])
p("C04","find_nearest_cluster answers the nearest-cluster query",
"For every index, the answer is [c,0] with the index inside cluster c when it is in a cluster, otherwise the signed distance to cluster c (positive right of it, negative left) whose absolute value is minimal among all clusters.",
"all reachable cluster tables and all point indices, x strictly increasing",
"All tables x all indices.",
[DC+"find_nearest_cluster"])
p("C05","combine_clusters merges without changing which points are clustered",
"A successful combine_clusters(groups) leaves exactly the same set of clustered points, replaces each group by one cluster spanning it and leaves every other cluster alone; a group that has a gap, is not consecutive, or reuses a cluster raises ValueError.",
"all cluster tables and all group lists",
"Argument space is unbounded.",
[DC+"combine_clusters"])
p("C06","find_adjacent_clusters returns exactly the maximal runs",
"The returned groups are exactly the maximal runs (length >= 2) of consecutive clusters with no unclustered point between neighbours, in increasing order; combining them always succeeds and leaves no two adjacent clusters.",
"all cluster tables",
"All tables; tests check a few.",
[DC+"find_adjacent_clusters",DC+"combine_clusters"])
p("C07","reset_clusters forgets all clustering progress",
"After any history reset_clusters() puts the object back in a state from which clustering proceeds exactly as from a fresh object on the same data (identical clusters, points and status after each next()).",
"all histories, all data",
"Arbitrary history.",
[DC+"reset_clusters",DC+"_setdata"])
p("C08","cluster_is_full tells whether the cluster can still grow",
"cluster_is_full(i) is True exactly when each of the points immediately left and right of cluster i either does not exist or is already in another cluster.",
"all reachable cluster tables, all cluster indices",
"All tables.",
[DC+"cluster_is_full"])
p("C09","Zero resolution makes each point its own cluster",
"With res = 0 and strictly increasing x, complete clustering yields exactly the n single-point clusters in order.",
"all data sets",
"All data.",
[DC+"__next__",DC+"_setdata"])
p("C10","Evaluator comparisons form a total order",
"For two evaluations by the same method exactly one of a<b, a==b, a>b holds, >= and <= are their complements, the order is transitive, and it is reversed by higher_is_better; evaluators of different methods or not yet evaluated never compare.",
"all pairs and triples of evaluator states",
"Order laws range over all stat values.",
[S+"modelevaluators/base.py:ModelEvaluator.__lt__"])
p("C11","AIC and AICc values and their penalties",
"A fresh evaluator's evaluate() returns chi^2 + penalty(k,n) when n >= minpoints(k) (an evaluator that is used again keeps the chi^2 of its first fit); the AICc denominator is positive exactly for n>=k+2, the AICc penalty is at least the AIC penalty and both are strictly increasing in k; a fit not worse in chi^2 with fewer parameters always has the lower (better) AIC and AICc; scaling all uncertainties by c divides chi^2 by c^2.",
"all k, n, chi^2",
"Real-valued inequality over all inputs.",
[S+"modelevaluators/aic.py:AIC.evaluate",S+"modelevaluators/aicc.py:AICc.evaluate"])
p("C12","growth_justified accepts growth only when enough data exists to evaluate it",
"growth_justified(fit,k) is true for AIC/AICc exactly when there are enough points for the larger model and the criterion of a perfect fit with k additional parameters would be lower than the present value; it is monotone in k, AICc justification implies AIC justification, and with k = 0 it is true exactly when chi^2 > 0 (and there are enough points).",
"all fits and k",
"All values.",
[S+"modelevaluators/aic.py:AIC.growth_justified",S+"modelevaluators/aicc.py:AICc.growth_justified"])
p("C13","Akaike weights and probabilities",
"For any non-empty list of AICs the weights lie in (0,1], the best AIC gets weight 1, probabilities are positive, sum to 1, are larger for a smaller AIC, and adding a constant to every AIC changes neither.",
"all non-empty lists of AIC values",
"All real lists.",
[S+"modelevaluators/aic.py:AIC.akaikeweights",S+"modelevaluators/aic.py:AIC.akaikeprobs"])
MP=S+"modelparts.py:"
p("C14","Packing and unpacking free parameters round-trip",
"unpack_freepars after pack_freepars(v) returns v, and packing the unpacked values changes nothing, for a vector of the right length.",
"all part lists, all free masks, all vectors",
"All masks and sizes.",
[MP+"ModelParts.pack_freepars",MP+"ModelParts.unpack_freepars",MP+"ModelPart.update",MP+"ModelPart.compress"])
p("C15","A fixed parameter is never changed by packing",
"pack_freepars changes no parameter whose free flag is False, in any part, and never changes the free flags, whether it returns or raises.",
"all part lists and vectors",
"All inputs.",
[MP+"ModelParts.pack_freepars",MP+"ModelPart.update"])
p("C16","Residual and its Jacobian agree",
"The residual is (data - sum of parts)/error and the list returned by residual_jacobian is its derivative with respect to the free parameters, in the same order as unpack_freepars.",
"all part lists with differentiable parts",
"All parameters; derivative is a limit.",
[MP+"ModelParts.residual",MP+"ModelParts.residual_jacobian",MP+"ModelParts.value"])
p("C17","Changing the owner of a part is all or nothing",
"changeowner either installs the new owner or raises StaticOwnerError/ValueError and leaves the part unchanged; a static part can never end up with another owner.",
"all parts, owners and call histories",
"Histories.",
[MP+"ModelPart.changeowner"])
p("C18","A fit either succeeds or leaves a consistent model",
"ModelParts.fit raises SrMiseFitError and leaves the parameters untouched when there are at least as many free parameters as points, does nothing when there are none; when it succeeds the optimiser reported success and the model is the normalised form of the original with the optimiser's vector packed into the free parameters; in all cases fixed parameters, flags and owners are kept. (When the optimiser reports failure the parameters do move; a singular covariance ends in TypeError.)",
"all part lists and all optimiser behaviours",
"The optimiser is a black box.",
[MP+"ModelParts.fit"])
BF=S+"basefunction.py:"
p("C19","Serialisation order of base functions",
"safefunctionlist returns every function reachable from the argument exactly once, each after all the functions it depends on.",
"all finite acyclic dependency graphs",
"All graphs.",
[BF+"BaseFunction.safefunctionlist",BF+"BaseFunction.safefunction"])
p("C20","Restricting to a range only masks values",
"value(pars,r,rng) equals the full value on the indices in rng and 0 elsewhere, has the length of r, and likewise each Jacobian row, with None exactly for fixed parameters.",
"all grids and slices",
"All.",
[BF+"BaseFunction.value",BF+"BaseFunction.jacobian"])
p("C21","Parameter format names resolve consistently",
"default_input, default_output and None denote the declared formats; unknown formats raise ValueError; transforming derivatives between equal formats is the identity.",
"all format strings",
"All strings.",
[BF+"BaseFunction.transform_parameters",BF+"BaseFunction.transform_derivatives"])
MC=S+"modelcluster.py:"
p("C22","Covariance expansion places each free parameter and zeroes the fixed ones",
"After setcovariance(parts, pcov), the covariance of two free parameters (i,j) is the matching entry of pcov, and any covariance involving a fixed parameter is 0.",
"all part lists, masks and covariance matrices",
"All sizes.",
[MC+"ModelCovariance.setcovariance",MC+"ModelCovariance.getcovariance"])
p("C23","Correlations are symmetric, bounded by one, and 0 for fixed parameters",
"getcorrelation is symmetric, lies in [-1,1] for a positive semidefinite covariance matrix, is 1 on the diagonal for a positive variance and 0 when a variance is 0.",
"all covariance matrices",
"All.",
[MC+"ModelCovariance.getcorrelation"])
p("C24","Covariance transforms by the Jacobian of the format change",
"ModelCovariance.transform turns V into G V^T G with G block diagonal, made of the gradients of the selected parts' format changes and the identity elsewhere, which for symmetric V and gradients is G V G^T and stays positive semidefinite; with diagonal gradients each covariance is multiplied by the two derivatives; unselected parts are left alone. (parts='baseline' raises KeyError; a part without parameters makes it raise half way; for non-symmetric gradients the result is not G V G^T.)",
"all covariance matrices and Jacobians",
"All.",
[MC+"ModelCovariance.transform"])
p("C25","Joining adjacent clusters keeps the model",
"join_adjacent raises ValueError if the clusters are not adjacent or do not share their data; otherwise the joined slice is the union, the argument order does not matter, and the joined peaks are exactly those of both clusters in order of position, except that of several peaks exactly at the border one stays, their free parameters possibly rescaled so that their sum at the border is the height of the data there; fixed parameters, flags and functions are kept.",
"all pairs of clusters",
"All.",
[MC+"ModelCluster.join_adjacent"])
p("C26","Replacing and deleting peaks respects removability and order",
"replacepeaks/deletepeak raise ValueError on non-removable peaks, otherwise remove exactly the given peaks, insert the new ones and leave the model sorted by position.",
"all models, slices and new peak lists",
"All.",
[MC+"ModelCluster.replacepeaks",MC+"ModelCluster.deletepeak"])
p("C27","A fit never makes the cluster worse",
"ModelCluster.fit on a cluster with peaks returns either an evaluation of the new model that is not worse than before, or None with exactly the original peaks and baseline; a successful fit keeps every peak (function, flags, removability) except those cleanfit regards as poor, so no sound non-removable peak is lost. On a cluster without peaks the estimated peak is the reference. (Exceptions other than SrMiseFitError, e.g. a singular covariance, leave moved parameters.)",
"all models and optimiser behaviours",
"Optimiser is a black box.",
[MC+"ModelCluster.fit"])
p("C28","contingent_fit refits exactly when the cluster has grown enough",
"contingent_fit(minpoints, growth) fits exactly when the cluster has data above the uncertainty and was never fitted and has at least minpoints points, or was fitted and has grown to at least growth times its size then; otherwise it returns None and changes nothing; a cluster marked never-fit after any history of slice changes has no point above the uncertainty, and directly after a fit it is not fitted again.",
"all clusters and histories",
"All.",
[MC+"ModelCluster.contingent_fit",MC+"ModelCluster.change_slice"])
p("C29","Pruning terminates, keeps non-removable peaks, and does not worsen the model when no fit is reverted",
"prune always terminates; the peaks afterwards are some of those before (same function and flags), every non-removable peak among them, whatever the fits do and also when it raises; if no parameter is fixed and no fit during the search is taken back the model is unchanged or strictly better. (When a fit is taken back during the search pruning can worsen the model; it can stop early; it can raise IndexError.)",
"all models and optimiser behaviours",
"Search loop over a black box.",
[MC+"ModelCluster.prune"])
GA=S+"peaks/gaussian.py:Gaussian."
GR=S+"peaks/gaussianoverr.py:GaussianOverR."
p("C30","Gaussian peak values: height, centre, width, area",
"The Gaussian of parameters (position,width,area) in pwa format is non-negative, has its maximum at position, has half of the maximum at position +- width/2, and integrates to area.",
"all parameters with 0 < width <= maxwidth, all r",
"All reals.",
[GA+"_valueraw",GA+"_transform_parametersraw"])
p("C31","Parameter formats of peaks round-trip and do not change the peak",
"Transforming pwa -> internal -> pwa and mu_sigma_area -> internal -> mu_sigma_area returns the original parameters whenever width <= maxwidth; the normalising internal -> internal transformation is idempotent, lands in the principal range and leaves the value at each r unchanged.",
"all parameter values",
"All reals.",
[GA+"_transform_parametersraw",GR+"_transform_parametersraw"])
p("C32","Peak width never exceeds maxwidth",
"Whatever values the optimiser gives to the internal parameters, the FWHM of the peak is between 0 and maxwidth; asking for a larger width raises SrMiseTransformationError.",
"all internal parameters",
"All reals.",
[GA+"_transform_parametersraw",GR+"_transform_parametersraw"])
p("C33","Jacobian of GaussianOverR is the derivative of its value",
"Each row of the GaussianOverR Jacobian is the partial derivative of the value with respect to that internal parameter.",
"all parameters with area != 0, all r != 0",
"A limit.",
[GR+"_jacobianraw",GR+"_valueraw"])
p("C34","transform_derivatives of GaussianOverR is the Jacobian of the format change",
"Entry (i,j) is the partial derivative of output parameter i with respect to input parameter j.",
"all parameters in the principal range",
"A limit.",
[GR+"_transform_derivativesraw"])
p("C35","max() of peaks returns the location and height of the maximum",
"Gaussian: max() returns the position and the value there, which no other value exceeds. Gaussian/r at a positive position: max() raises ValueError exactly when position^2 <= 4 sigma^2 (then the values decrease on r>0, there is no maximum), otherwise returns a point whose value strictly exceeds every value right of the other stationary point.",
"all parameters",
"All reals.",
[GA+"max",GR+"max"])
p("C36","scale_at rescales the value at x while keeping the peak height",
"scale_at(x, s) of a peak function either raises SrMiseScalingError (s <= 0, width needed above maxwidth) or yields parameters whose value at x is s times the old while position and height (Gaussian) or location and height of the maximum (Gaussian/r) are kept; shrinking always succeeds. (At the position of a Gaussian itself it returns a peak of zero area.)",
"all parameters, x, scale",
"All reals.",
[GA+"scale_at",GR+"scale_at",S+"peaks/base.py:Peak.scale_at"])
p("C37","Peaks.sort orders by position and keeps the same peaks",
"After sort() the peaks are a permutation of the previous ones in non-decreasing position order; argsort() gives that permutation.",
"all peak lists",
"All.",
[S+"peaks/base.py:Peaks.sort",S+"peaks/base.py:Peaks.argsort"])
p("C38","Polynomial baseline: value, estimate and Jacobian",
"The value is sum a_d r^d over the degrees, degree < 0 is the zero function, a wrong number of parameters is ValueError; the estimate of a line has intercept 0 and the least-squares slope of the lowest tenth of the data. (The Jacobian rows are in reverse order of the parameters: row i is r^i, parameter i is the coefficient of r^(degree-i).)",
"all degrees, coefficients and r",
"All.",
[S+"baselines/polynomial.py:Polynomial._valueraw",S+"baselines/polynomial.py:Polynomial._jacobianraw"])
p("C39","Nanospherical baseline: shape and derivatives",
"For a positive radius the value is -|scale| r (1-r/2R)^2 (1+r/4R) for 0<r<2R and 0 elsewhere, never positive, continuous in r; the array code agrees with the scalar code on every sorted grid; the radius row of the Jacobian is the derivative, the scale row is for positive scale; converting formats is idempotent. (A negative radius gives 0 everywhere although documented as equivalent to its absolute value; the scale row has the wrong sign for negative scales.)",
"all scale, radius, r",
"All reals.",
[S+"baselines/nanospherical.py:NanoSpherical._valueraw",S+"baselines/nanospherical.py:NanoSpherical._jacobianrawscale"])
PE=S+"peakextraction.py:PeakExtraction."
p("C40","The fitting range selects exactly the data within it",
"For non-empty sorted x getrangeslice selects exactly those indices with rng[0] <= x <= rng[1] if there is one, and raises IndexError otherwise.",
"all sorted grids and ranges",
"All.",
[PE+"getrangeslice"])
p("C41","Near and other peaks are a partition, and the near ones are the nearest",
"At a border the peaks of a cluster split into the near and the other peaks with none lost or doubled for every pivot; for sorted positions the near peaks are the last one left of the border and the first one not left of it; the interpeak range reaches to the second peak on each side or the cluster's end.",
"all peak lists, all pivots",
"All.",
[PE+"extract_single"])
PX=S+"pdfpeakextraction.py:"
p("C42","Resampling and supersampling",
"errorscale is at least 1 and its square is the degree of oversampling when qmax>0, nyquist and scale are on; on a uniform grid resample is the Whittaker-Shannon sum and reproduces the samples at the sampling points; the new grid consists of all points from the lower end in steps dr below the upper end; resampled uncertainties are at least the least given one and equal the given ones at grid points. (On a non-uniform grid resample does not reproduce the samples.)",
"all grids and qmax",
"All.",
[PX+"PDFPeakExtraction.errorscale",PX+"resample",PX+"PDFPeakExtraction.resampledata"])
p("C43","stdratio computes running variances in one pass",
"Element i of stdratio(data) is the standard deviation of the first i+2 points divided by that of the i+2 points after them, for all i < len(data)//2-1; fewer than four points raise IndexError.",
"all data sequences",
"All.",
[PX+"stdratio"])
MS=S+"multimodelselection.py:"
p("C44","Classification partitions the models",
"classify puts every model into exactly one non-empty class, and classes_idx tells which; the models of a class are in increasing order and all of them are alike its first model: the same kinds and numbers of parameters, and for each peak and the baseline the difference of the sums of the squared values is within the tolerance; no model is alike the first model of an earlier class. (Findings: sums are compared, so peaks without a common point can be 'the same'; peak functions are not compared; two members of a class need not be alike.)",
"all lists of models evaluated on one grid, all tolerances",
"All.",
[MS+"MultimodelSelection.classify"])
p("C45","Model queries by rank agree with the AICs",
"get_model(dG, cls=None, morder=k) runs for k=0,1,... through all models, each once, from lowest to highest AIC, and raises IndexError beyond; with a class, through its models; get_class(dG, corder=k) through the classes in the order of their lowest AIC; get_model(dG) has the lowest AIC of all; get_prob is the probability of the model's class, these are positive, sum to 1 and are ordered as the AICs; modelbestdgs gives exactly the uncertainties at which the model is the best; dg_key the nearest tested one. (Finding: classbestdgs and modelbestdgs ignore their argument dgs.)",
"all AIC tables, partitions into classes, ranks, and tie orders of argsort",
"All.",
[MS+"MultimodelSelection.get_model",MS+"MultimodelSelection.bestmodels"])
p("C46","Uncertainty rescaling of chi^2",
"The AIC that makeaics computes for an uncertainty dg by rescaling the chi-square of the first uncertainty equals that of a direct evaluation with dg, and the list of each uncertainty has one entry per model in their order. (Finding: an uncertainty given k times has every entry k times.)",
"all models, data and lists of uncertainties with a non-zero first one",
"All.",
[MS+"MultimodelSelection.makeaics"])
PD=S+"pdfdataset.py:PDFDataSet."
p("C47","PDF data set text format",
"Reading succeeds only if every data line starts with two numbers; then r, G, dr, dG have one entry per line, r and G are the first two columns, dr and dG the third and fourth if every line has a usable (positive) value there and otherwise all zero, rmin and rmax the first and last r. A data set with all-positive or all-zero uncertainties is read back from its written lines with the same numbers up to the rounding of the number format. (Findings: mixed uncertainties are lost; an empty data set cannot be read back; a bad line leaves part of the data, with r and G of different lengths; copy() drops spdiameter.)",
"all data lines, all number formats",
"All.",
[PD+"readStr",PD+"writeStr"])
p("C48","setvar/getvar accept exactly the refinable variables",
"getvar after setvar of qdamp, qbroad or dscale (blanks around are ignored) returns the set value, the other variables and all other attributes are unchanged; any other name, or a value that is no number, raises an error and changes nothing.",
"all names and values",
"All.",
[PD+"setvar",PD+"getvar"])
SL=S+"srmiselog.py:"
p("C49","Log levels",
"After any history of setlevel, setfilelevel and addfilelog with positive levels (addfilelog not below INFO), stdout shows exactly the messages at or above its level and each log file gets exactly those at or above its own. (Findings: addfilelog with DEBUG does not log debug messages; setlevel(0) hides INFO messages; names in capitals raise TypeError after the change; addfilelog('debug') leaves a detached file log; liveplotting with a bad second argument has set the first.)",
"all call histories",
"Histories.",
[SL+"setlevel",SL+"setfilelevel",SL+"addfilelog"])
p("C50","Traces are numbered and levelled correctly",
"During an outermost traced call exactly the emitted traces that pass all filters are recorded, each with the current recursion depth and numbered 0,1,2,...; after it returns no call is active and the depth is 0. (Findings: an exception leaves the tracer inside the call, so the next extraction is not reset and one level too deep; reading a trace returns the reader's counters, not the file's.)",
"all call sequences",
"Histories.",
[SL+"TracePeaks"])
p("C51","The extraction loop's bookkeeping never goes wrong",
"On any non-empty data with distinct coordinates the main loop of extract_single ends, violating none of its assertions, after fewer than n iterations, with exactly one data cluster spanning the range and exactly one model cluster with the matching slice.",
"all data sets, resolutions and tie orders",
"Invariant over an unbounded loop on arbitrary data.",
[PE+"extract_single",DC+"combine_clusters"])
p("C52","find_nearest_cluster2 answers for the data point right of the coordinate",
"For a coordinate right of the first and not right of the last data point, the answer is a cluster nearest to the first data point not left of the coordinate, with that point's signed distance. (Right of the data it raises IndexError; left of it the answer has the distance of the last point; inside the data the cluster need not be the one nearest to the coordinate itself.)",
"all reachable cluster tables and coordinates",
"All tables x all coordinates.",
[DC+"find_nearest_cluster2"])
p("C53","Construction, copying and equality of model parts",
"ModelPart(owner, pars, free) accepts exactly matching lengths; a copy is equal to the original; == is an equivalence relation; getfree after setfree returns the value set and nothing else changes.",
"all parts",
"All.",
[MP+"ModelPart.__init__",MP+"ModelPart.copy",MP+"ModelPart.__eq__",MP+"ModelPart.setfree"])
p("C54","Arbitrary and FromSequence baselines",
"FromSequence accepts exactly one file, or x and y, positionally or by keyword, anything else is TypeError; Arbitrary passes parameters to the user's functions exactly if their number is right. (Arbitrary(n) has n+1 parameters; its lenient Jacobian always raises; reading sequences from a file loses the first character.)",
"all argument combinations, parameter lists and files",
"All.",
[S+"baselines/fromsequence.py:FromSequence.__init__",S+"baselines/arbitrary.py:Arbitrary"])
p("C55","Peak estimation from data",
"estimate_parameters raises SrMiseEstimationError exactly when the lengths differ or fewer than three values are positive; otherwise the estimate is finite, positioned between two points with positive data, has a FWHM in (0, maxwidth] and the height of the highest data point.",
"all strictly increasing grids and data",
"All reals, all lengths.",
[GA+"estimate_parameters",GR+"estimate_parameters"])
p("C56","correlationwarning lists exactly the strongly correlated pairs",
"For a positive semidefinite covariance matrix, correlationwarning(t) lists exactly the pairs of different parameters with |correlation| > t, each once, with that correlation.",
"all covariance matrices and thresholds",
"All sizes.",
[MC+"ModelCovariance.correlationwarning"])
p("C57","Scaling peaks and matching a height never touch fixed parameters",
"Peak.scale_at and Peaks.match_at never change a fixed parameter; False means unchanged (except that match_at on exactly two peaks may have changed free parameters of the first); when every peak can be scaled match_at makes the sum at x exactly y. (The second attempt of match_at never works for three or more peaks.)",
"all peak lists, coordinates and heights",
"All.",
[S+"peaks/base.py:Peak.scale_at",S+"peaks/base.py:Peaks.match_at"])
p("C58","cleanfit removes exactly the poor peaks",
"cleanfit removes exactly those peaks that have NaN parameters or are removable and out of range / crowded / of negligible height, keeps the others in order, and returns the number removed.",
"all sorted models",
"All.",
[MC+"ModelCluster.cleanfit"])
p("C59","reduce_to leaves the model alone or returns its evaluation",
"When reduce_to(x,y) returns None the model is unchanged; when it returns an evaluation it is that of the cluster's model, which is not worse than the model scaled to y at x. (It can be worse than the original model, and the baseline is ignored in the test.)",
"all models and optimiser behaviours",
"Optimiser is a black box.",
[MC+"ModelCluster.reduce_to"])
p("C60","augment adds only source peaks, terminates, and improves when no fit is reverted",
"augment(source) ends after at most one round per source peak; the peaks afterwards are among those of the cluster and the source; if all peaks are removable and no fit is taken back the result is not worse. (With a non-removable peak in the cluster it always raises; with reverted fits it can worsen the model.)",
"all models, sources and optimiser behaviours",
"Search loop over a black box.",
[MC+"ModelCluster.augment"])
p("C61","setdata stores sequences of one length",
"setdata succeeds exactly when all given sequences have one length; then the object holds them, zeros for missing uncertainties, and no extraction variable changed. (A failed call has already replaced some data.)",
"all sequences",
"All.",
[PE+"setdata"])
p("C62","setvars stores the given variables and fills in the others",
"setvars with known names stores exactly the given values and then fills in defaults; an unknown name raises ValueError with exactly the variables before it changed.",
"all keyword lists and states",
"All.",
[PE+"setvars"])
p("C63","defaultvars fills in exactly the missing variables",
"On an object with data defaultvars succeeds, keeps every variable that is set, gives the others the documented defaults, and is idempotent; a baseline function is replaced by the estimated baseline or zero. (Variables derived from old data survive setdata; constant data get uncertainty 0.)",
"all states with data",
"All.",
[PE+"defaultvars"])
PPE=PX+"PDFPeakExtraction."
p("C64","Extraction variables of PDF extractions",
"dg is an alias of effective_dy; dg with effective_dy, automatic qmax without an estimate, and supersample < 1 are refused without effect; automatic qmax stands for the estimated one; defaults: qmax the reported, else the estimated, else 0, nyquist iff qmax > 0, cres pi/qmax.",
"all states and keyword lists",
"All.",
[PPE+"setvars",PPE+"defaultvars"])
p("C65","PDF metadata round trip",
"readmetadata(writemetadata()) restores all seven fields whatever the reading object held; a text without one of them raises SrMiseDataFormatError.",
"all field values with one-line representations",
"All strings.",
[PPE+"writemetadata",PPE+"readmetadata"])
p("C66","The Nyquist resampling loop of extract terminates",
"If a pass (resample, fit, prune) adds no free parameters, the loop ends after at most as many passes as there are free parameters plus one, with a sampling interval not above the Nyquist interval and more sampling intervals than free parameters.",
"all models, all behaviours of a pass",
"Termination for every behaviour of the fits.",
[PPE+"extract"])
p("C67","estimate_peak looks at exactly the data near x and adds exactly what it returns",
"estimate_peak(x) raises ValueError exactly when x lies outside the data; otherwise the estimate is made from exactly the cluster of the unexplained data (data minus baseline and known peaks) that contains the first point not left of x; None is returned if no point of that cluster rises above its uncertainty or no peak can be estimated. It returns None or a removable peak of one of the supplied peak functions. With add=True that one peak is added to the extracted peaks, or to initial_peaks when there are none, which stay sorted by position; nothing else changes, and with add=False or no peak found nothing changes beyond completing the default variables.",
"all data, variables, x, optimiser and estimation results",
"Ranges over all data and all x, including those between clusters and at the ends.",
[PE+"estimate_peak",PE+"add_peaks"])
p("C68","extract_single returns one cluster over exactly the selected data",
"If extract_single returns, extracted is one cluster over exactly the points whose coordinates lie in rng, with their original values and effective uncertainties (initial peaks that were subtracted are added back), with the evaluator and peak functions of the variables and the baseline of the variables, whose parameter values may have changed at the top level only; the main loop takes at most one iteration per point.",
"all data with increasing coordinates, all variables, all behaviours of the fits, all recursion depths",
"The result depends on the optimiser and on a recursive search; must hold for all.",
[PE+"extract_single"])
p("C69","Every extracted peak comes from the supplied functions or the initial peaks",
"Every peak in the result of extract_single is of one of the supplied peak functions, or is one of the initial peaks up to parameter values, none of which occurs more often than it was given.",
"all data, variables, initial peaks and optimiser behaviours",
"Search with joins, recursion and pruning over a black box.",
[PE+"extract_single",MC+"ModelCluster.join_adjacent",MC+"ModelCluster.augment",MC+"ModelCluster.prune"])
p("C70","No non-removable initial peak is lost in extract_single",
"The non-removable peaks of the result of extract_single are, up to parameter values and order, exactly the non-removable initial peaks.",
"all data, variables, initial peaks and optimiser behaviours",
"Must survive any sequence of fits, joins, prunings.",
[PE+"extract_single"])
p("C71","Recursive searches nest at most three deep",
"extract_single calls itself to a depth of at most three, whatever the data and the fits; and not at all if the evaluator never holds that more peaks could be justified in a residual.",
"all data, variables and optimiser behaviours",
"Termination for every behaviour of the fits.",
[PE+"extract_single"])
p("C72","fit_single keeps the initial peaks and never returns a worse model",
"When fit_single returns, the extracted cluster covers exactly the data in the range, its peaks are initial peaks up to parameter values (none twice, no non-removable one missing), its baseline is the given one up to parameter values, and by the evaluator in use it is of no worse quality than the initial peaks. Only the peak list behind initial_peaks and the baseline object can change; if it raises nothing is extracted. (Finding: the fit works on those very objects, so when the optimiser gives up or the result is rejected, the extracted cluster has the old parameters but initial_peaks and baseline are left with those of the failed fit.)",
"all data, variables and optimiser behaviours",
"Must hold for every result, good or bad, of the optimiser.",
[PE+"fit_single",S+"modelcluster.py:ModelCluster.fit"])
p("C73","The steps of extract_single lose no peak silently and take the better model",
"When extract_single joins two clusters, the peaks of the joined cluster are those next to the border (at most two) and the others; the others stay in the result, those next to the border are replaced by the better of two models (reduced at the border, or fitted), taking the first only if it is better; a deeper search adds to a model only peaks found in the residual of that very model; at a full boundary likewise. After the main loop all initial peaks are added to all peaks found and to the data, and the model is then pruned, which only takes away removable peaks and only for a better model (with honest evaluator and convergent fits), and fitted. Only the final fit of a step can remove poor removable peaks. (Finding: the 'border' of a full boundary is taken at the data point whose index is the number of the cluster, which is never right of the cluster, so the peak considered near the border is the leftmost one even when the last data point has been reached.)",
"all data, all models of the clusters, all optimiser and evaluator behaviours",
"Each step must be right for all intermediate states; tests see the few that arise in the examples.",
[PE+"extract_single"])
p("C74","Command line options of srmise reach the extraction",
"When the srmise program reaches the extraction, every option given with a true value (range, cres, qmax, supersample, --nyquist, --scale, a baseline with parameters) is the value the extraction uses, and the uncertainties are those of the --dg-mode and --dg asked for (absolute value, fraction of the maximum, fraction of the peak-to-peak distance, fraction of the reported uncertainty, or those reported). (Findings: --no-nyquist, --no-scale, --cres 0, --supersample 0 and --bseq have no effect; --pf and --me always end the program because the names they are looked up in are never imported; with no --dg option a PDF without uncertainties is given uncertainties of zero; the qmax estimated from the data is never the default; --dg-mode absolute without --dg, and --bsrmise, end in an uncaught TypeError.)",
"all combinations of options, all file contents, all defaults",
"Combinations of twenty options with every file; a test runs a few.",
[S+"applications/extract.py:main",S+"pdfpeakextraction.py:PDFPeakExtraction.setvars"])
p("C75","Baseline parameters on the command line",
"Each parameter text of a baseline option is a number, which makes a free parameter, or a number followed by c, which makes a fixed one, in the order given, and nothing else is accepted; --bcrystal v is the line of slope -4 pi v through the origin, that is --bpoly1 with that slope and 0c.",
"all texts and all interpretations of a text as a number",
"All texts.",
[S+"applications/extract.py:parsepars",S+"applications/extract.py:main"])
p("C76","Peaks, baselines and functions written as text are read back",
"writestr of a peak or baseline succeeds exactly if its owner is in the list given, and Peak.factory / Baseline.factory then give back the same owner, parameters, free flags, removability and static owner, whatever white space surrounds the text, provided the numbers evaluate back to themselves; a text is refused with SrMiseDataFormatError exactly if some line is not key=expression with an expression that can be evaluated. The same for BaseFunction.writestr and factory with one-line metadata whose first word has no '='. (Findings: a parameter that is nan or inf is written but cannot be read back; owner index n into a list of n functions is IndexError, not the documented ValueError, and negative ones count from the end; metadata with '=' in the first word comes back under another key.)",
"all parts, all function lists, all texts, all interpretations of eval and repr",
"All texts and all parameter values.",
[S+"modelparts.py:ModelPart.writestr",S+"peaks/base.py:Peak.factory",S+"baselines/base.py:Baseline.factory",S+"basefunction.py:BaseFunction.writestr",S+"basefunction.py:BaseFunction.factory"])
p("C77","A cluster written as text is read back",
"ModelCluster.writestr succeeds exactly if the functions in use are in the lists given and the data are complete; ModelCluster.factory on that text gives back the same peaks, baseline, peak functions and slice, the data as they come back from %g, and the evaluator found under the name written; the columns read have equal length. (Findings: with the package as it is, the evaluator is never found, so every text written ends in AttributeError; a cluster without points is written but refused; a text without a data section ends in NameError instead of SrMiseDataFormatError.)",
"all clusters, function lists, texts, all interpretations of eval, repr, float and %g",
"All texts and all clusters.",
[S+"modelcluster.py:ModelCluster.writestr",S+"modelcluster.py:ModelCluster.factory"])
p("C78","Extraction files can be written, but never read",
"writestr of a PDFPeakExtraction succeeds for every object with a clustering resolution, data columns of one length and, if something was extracted, peak functions: the lists of functions written contain every function in use. (Findings: read and readstr never return, whatever the file: the file is opened in binary mode and searched with text patterns, and one pattern is not a regular expression; the object is cleared before that. An object of the base class, one without a clustering resolution, and one whose cluster has no peak functions cannot be written.)",
"all objects, all files and texts",
"No file can be read; a test on any one file cannot tell.",
[PE+"read",PE+"readstr",PE+"writestr"])
p("C79","Queries of a MultimodelSelection answer for the last makeaics and classify",
"Whatever was done with the object before: with at least one result and different uncertainties makeaics succeeds, and classify after it; then for each of these uncertainties get_model, get_class, get_prob, get_aic, maxprobmodel_byclass and maxprobmodel_bymodel answer with the ranking of the current results (lowest statistic first), maxprobdG_byclass and maxprobdG_bymodel give the first uncertainty of largest probability, and every query at another uncertainty raises KeyError. get returns exactly what the separate queries return, in order. (Findings: the documented name \"dG\" of get is a KeyError and \"dg\" with a keyword a TypeError; get with cls=c returns the best class, not the class of the model; without classify after makeaics the queries by class answer for the old results; after other results were run get_nfree mixes old ranks with new results; get_nfree raises for a model without baseline; loadaics never succeeds.)",
"all histories of the object, results, statistics, classes and uncertainties",
"The state depends on the whole history of calls; rankings and stale dictionaries can be sampled only.",
[S+"multimodelselection.py:MultimodelSelection.makeaics",S+"multimodelselection.py:MultimodelSelection.classify",S+"multimodelselection.py:MultimodelSelection.get",S+"multimodelselection.py:MultimodelSelection.get_model",S+"multimodelselection.py:MultimodelSelection.maxprobdG_byclass",S+"multimodelselection.py:MultimodelSelection.loadaics"])
p("C80","What PeakStability.run records and setcurrent restores",
"run(err) extracts at each uncertainty in turn, with the user's data and other variables: when it returns there is one result per uncertainty, in order, holding that uncertainty, the peaks found with constant uncertainty of that size, and the spacing of their grid; when it raises (as it does for an uncertainty that is not positive) the results of the extractions before the failing one are kept. setcurrent(i) makes exactly result i the active model, on the data resampled at its spacing, and records i; with a positive qmax and Nyquist sampling this restores the grid, values, uncertainties and peaks of the extraction exactly. animate leaves the results alone and ends with the result that was current before. (Findings: when the first data point is the highest one, results may share one baseline object, which then has the parameters of the last extraction in all of them; without Nyquist sampling the restored model loses the last data point; an index that is out of range is recorded as current before IndexError is raised.)",
"all data, variables, lists of uncertainties, optimiser behaviours, indices, histories",
"A series of searches around a black box optimiser, with state carried from one to the next.",
[S+"peakstability.py:PeakStability.run",S+"peakstability.py:PeakStability.setcurrent",S+"peakstability.py:PeakStability.animate",PPE+"resampledata"])
p("C81","What PDFPeakExtraction.extract returns",
"extract() either raises, leaving no extracted model and no extraction type, or leaves a model of type 'extract'. Its data are those in the range (qmax 0), or resampled: at the Nyquist interval pi/qmax with Nyquist sampling, or at the coarsest interval that gives more points than the model and baseline have free parameters; without Nyquist sampling supersampled. Its baseline is the given one up to parameter values, its peaks are initial peaks (all non-removable ones) and peaks of the supplied functions, with termination ripples if qmax is positive; with Nyquist sampling there are more points than free parameters. The resampling loop ends if the baseline has fewer free parameters than there are Nyquist intervals. (Findings: when pruning removes every peak the next fit estimates a single peak that never gets ripples and is exempt from these guarantees; with a baseline of too many free parameters the loop may alternate for ever between no peak and one.)",
"all data, variables, initial peaks, optimiser and evaluator behaviours, all numbers of passes",
"A loop around a search around a black box optimiser; termination and the relation of the final data to the final model must hold for all.",
[PPE+"extract",PPE+"resampledata",MC+"ModelCluster.prune",MC+"ModelCluster.fit"])
p("C82","What PDFPeakExtraction.fit returns",
"fit() either raises, leaving no extracted model and no extraction type, or leaves a model of type 'fit' for the data of the range (resampled at the Nyquist interval if qmax is not 0 and Nyquist sampling is on): its peaks are the initial peaks up to parameter values, no non-removable one missing and none added, its baseline the given one up to parameter values. Whether or not it raises, only the peak list behind initial_peaks and the baseline object behind baseline can change.",
"all data, variables, initial peaks and optimiser behaviours",
"Must hold for every result of the optimiser and every failure.",
[PPE+"fit",PE+"fit_single"])
p("C83","Cutting frequencies",
"cut_freq(sequence, delta) returns as many values as it is given: the sequence, with zeros appended up to the next power of two P, convolved with the average of the cosines of the components whose frequency, reckoned as 2 pi k/((P-1) delta), is below qmax. It is linear, never increases the sum of squares, returns the sequence unchanged when qmax is above every frequency, and, for a length that is a power of two, cutting twice equals cutting once. (Finding: the frequencies of a padded sequence of P values are 2 pi k/(P delta), so components below qmax can be removed.)",
"all sequences of at least two values, all positive spacings and qmax",
"Slicing of a two-sided spectrum has boundary cases for every length, spacing and qmax.",
[S+"peaks/terminationripples.py:TerminationRipples.cut_freq"])
p("C84","Values and derivatives with termination ripples",
"On a uniform grid of at least two points, value(peak, r, rng) returns a value per point: 0 outside the range, inside it the base function filtered on a grid that contains the points of the range, is the coarsest refinement no coarser than 2 pi/(supersample qmax), and is extended on either side by extension*2 pi/qmax, but not below 0; value at a number is the filtered value there. Values are linear in the base function. On grids as fine as that, jacobian has a row per parameter, None for fixed ones, and is the derivative of the values if the base function's is. (Findings: on coarser grids jacobian is not the derivative of value; values in a range are not those of the whole grid; a sequence of one point raises ValueError, an empty range IndexError, jacobian at a number NameError.)",
"all base functions, uniform grids, ranges, qmax, extension and supersample values",
"The refined and extended grid depends on real numbers through ceilings; agreement of value and Jacobian must hold for every function and grid.",
[S+"peaks/terminationripples.py:TerminationRipples.value",S+"peaks/terminationripples.py:TerminationRipples.jacobian",S+"peaks/terminationripples.py:TerminationRipples.extend_grid"])
p("C85","A search on sensible data returns, or raises ValueError or TypeError",
"On data with increasing coordinates, positive or unset effective uncertainties, a nonempty range, nonnegative resolution, some peak function, removable initial peaks and a baseline that is given, absent or estimated (estimation failing only by SrMiseEstimationError or NotImplementedError), if the optimiser fails only by SrMiseFitError (or by TypeError where the covariance of a fit does not exist), peak estimates only by SrMiseEstimationError and all qualities are numbers of one evaluator, extract_single returns, raises ValueError, or raises the TypeError of a covariance that does not exist: no index, assertion or attribute error, and no endless loop, can occur, at any depth of recursion. It always returns if covariances exist and no fit and no estimate puts a peak onto or left of the first point of its cluster. (Finding: otherwise the ValueError does occur, because the border of a cluster that reaches the end of the data is looked up by the number of the cluster.)",
"all data, variables, objects, optimisers, evaluators, peak functions, and all recursive searches they lead to",
"The failure depends on the history of clustering, fitting, joining and recursing, with arbitrary numerics in between.",
[PE+"extract_single",PE+"defaultvars",MC+"ModelCluster.fit",MC+"ModelCluster.prune",MC+"ModelCluster.join_adjacent"])
p("C86","What makeplot draws",
"makeplot draws the extracted model, or, if nothing has been extracted, the initial peaks and the baseline on the data of the range (setting unset variables to their defaults), and never changes a peak, a baseline or the extracted model. The fit is the scaled value of the model on ten times as many points as the cluster has, each peak is filled between the baseline and the baseline plus that peak, the residual is the scaled difference of data and model at the cluster's points (with mask_residual only where it is at most that number in absolute value), shifted as a whole; observed data are shown at increasing coordinates, at the points of the cluster and beyond them to the limits of the x-axis, and on evenly spaced data they are the scaled data wherever a coordinate of the data is shown. With limits left to makeplot, observed data, fit and peaks lie above the residual and below the insets by the given offsets, and the insets take their share. (Findings: beyond the cluster the points shown are not data points; a cluster of one point raises ValueError; so does a residual without any other curve; a series height without a series raises AttributeError.)",
"all data, models, baselines, keyword arguments, series and ideal positions",
"Limits and grids are computed from extremes over all curves for every model and option; overlap depends on all of them.",
[S+"applications/plot.py:makeplot"])
p("C87","The insets: positions compared, series of uncertainties",
"comparepositions draws one bar per extracted peak within the limits, up, and one per ideal position, down, interrupted between them. dgseries draws one dot per peak of each result with scaled uncertainty within the limits and position within the limits, at (position, scaled uncertainty), in order; with uncertainties in increasing order and a nonnegative scale the default limits show all results. (Finding: default limits are the first and last result's, so for decreasing uncertainties nothing is shown; without results IndexError.)",
"all positions, limits, heights and results",
"One dot per peak and result for every list of results, with filters by two computed ranges.",
[S+"applications/plot.py:comparepositions",S+"applications/plot.py:dgseries"])
p("C88","Saved analyses and the plotting command",
"PeakStability.save writes a file from which PeakStability.load restores the analysis, and the plotting command plots a file saved by SrMise. (Finding: neither holds for any input: load raises for every file, leaving the results of the file and an empty extraction; save that fails has emptied the file; the plotting command, given one file, always reports that it is not a SrMise file and returns; distances to compare with can never be read.)",
"all files, saved analyses and options",
"That no file at all can be read is a statement about all inputs.",
[S+"peakstability.py:PeakStability.load",S+"peakstability.py:PeakStability.save",S+"applications/plot.py:main",S+"applications/plot.py:readcompare"])
p("C89","The summary of extracted peaks",
"writepwastr/writepwa summarize an extraction: the table that follows '#L position fwhm area' has exactly one row for each extracted peak, in order, with the peak's position, full width at half maximum and area (as the transformation to format 'pwa' gives them; for a Gaussian these are the place of the maximum, the width at half of it and the integral), and an index that leads to the peak's function in the list of functions; equal indices mean the same function. Comments are kept and cannot be mistaken for other parts. Without an extraction SrMiseError is raised; a file is only touched if the summary could be made. (Findings: the number of free parameters of the baseline is that of the variable, not of the extracted baseline; a baseline variable that is a function makes the summary impossible.)",
"all extractions, comments, texts of numbers and names, lists of functions",
"Comments and names are arbitrary text; every extraction, with any number of peaks and functions, must come out right.",
[PPE+"writepwastr",PPE+"writepwa"])
p("C90","Histories of calls on one object",
"Take any sequence of calls of clear, clearcalc, loadpdf, setdata, setvars, defaultvars, extract, fit, add_peaks and estimate_peak on one object, in any order, some of which may raise. If there is a result afterwards, it is that of the last call that makes or deletes results; that call was extract or fit, it returned, and extraction_type says which. Later calls can only have added peaks to it. An extract or fit that raises leaves no result, not even the old one. The data are those of the last call that set them. A variable keeps its value until a call names it or clears the object. After loadpdf (or clear) the object behaves exactly as a new one. extract called twice gives the same result twice. (Findings: setdata keeps the result, the uncertainties, the range and, if none is found in the new data, the qmax of the old data.)",
"all sequences of calls with all arguments, all outcomes of the single calls, arbitrary changes of the objects behind the variables between calls",
"The number of histories is infinite; each call can raise at several points, leaving a partly changed object.",
[PX+"PDFPeakExtraction",S+"peakextraction.py:PeakExtraction"])
p("C91","Resetting variables by name",
"defaultvars(name, ...) gives the named variables the values they would get had they never been set and keeps the others: the outcome is that of defaultvars() on an object in which the named variables are not set; naming all variables gives what a new object with the same data gets; names that are no variables are ignored; without names it is defaultvars(). (Findings: a name given twice gets the default of the base class; a named baseline that is a function is estimated first, and if that raises, so does the call.)",
"all lists of names, all states of an object with data",
"Which default is taken depends on the combination of names, variables set and data.",
[PE+"defaultvars",PPE+"defaultvars"])
p("C92","The list given as range",
"The range of an object has the ends given and, where None is given, those of the data; an object without a range makes its own list, which no other object shares. (Findings: None in a list given by the caller is replaced in the caller's list, so that a list given to two objects has the ends of the data of the first for both; None in a tuple raises TypeError.)",
"all lists, tuples, data, and all sharing of lists between objects",
"The effect depends on which objects share the list, which a test of one object does not show.",
[PE+"setvars",PE+"defaultvars"])
p("C93","The qmax found in the data",
"find_qmax(r, y) raises ValueError for sequences of different lengths, IndexError or ValueError for fewer than 8 points, and returns otherwise. The value is 2*pi*(j+2)/(r[-1]-r[0]), where j is the last place at which the ratio of the spreads of successive runs of sine amplitudes of the interpolated data bends most; its uncertainty is 2*pi/(r[-1]-r[0]). Whatever the data, the value is positive, a whole multiple of the uncertainty and less than pi/dr by at least 3/2 of the uncertainty (so the Nyquist spacing of qmax='automatic' is larger than that of the data; data sampled at exactly the Nyquist spacing never give their own qmax). It does not depend on the origin of r or the scale of y, and is measured in the inverse of the unit of r. Only the ends of r matter.",
"all sequences r, y of all lengths; all units",
"The value goes through a Fourier transform and a search for a maximum; limits that hold for all data cannot be tested.",
[PX+"find_qmax",PX+"stdratio",PPE+"setdata"])
p("C94","What a cluster shows is the sum of its parts",
"value() of a cluster is, at every point of the cluster, the sum of the baseline (if any) and all peaks; value(r) the same on any r; the residual plus the value is the data; the order of the peaks does not matter for value, residual, quality. quality() is the sum of the squared deviations in units of the uncertainties plus 2k (AIC) or 2k + 2k(k+1)/(n-k-1) with n at least k+2 (AICc), where k counts the free parameters of the peaks (all of them with count_fixed) and none of the baseline; with kshift below -k it raises SrMiseModelEvaluatorError. plottable() draws the data and the whole, or each peak on the baseline. addexternalpeaks inserts the peaks in order and adds them to the data: residuals do not change, and AIC rises by twice the number of their parameters.",
"all clusters, baselines, peaks, functions, data, evaluators, orders of peaks",
"Sums over all points and parts for arbitrary functions; an order or a point that is not tested could differ.",
[MC+"ModelCluster.value",MC+"ModelCluster.valuebl",MC+"ModelCluster.residual",MC+"ModelCluster.quality",MC+"ModelCluster.plottable",MC+"ModelCluster.addexternalpeaks",S+"modelevaluators/aic.py:AIC.evaluate"])
p("C95","The search with the numerics of the code",
"With the code's own quality (AIC or AICc), least-squares wrapper, clean-up and estimates - and any optimiser, argsort, functions and parameter estimates - extraction ends with ValueError, with TypeError or with one cluster over exactly the data of the range, whose peaks are initial peaks or of the supplied functions and whose quality is the squared deviation of baseline and peaks plus the penalty. A fit that is kept does not raise this cost, and a fit that is not kept changes nothing; augment does not raise it; prune leaves the peaks or lowers it (fits converging, all parameters free). In prune, setting distant peaks aside and shifting the parameter count gives exactly the quality of the whole remaining model on all data, and the shift is never negative. Estimated peaks are removable with all parameters free. fit(justify=True) gives up a single peak exactly if there are points enough for one more peak of the smallest supplied function and its penalty is below the deviation. (Findings: the ValueError does occur with peaks estimated within their data; a singular covariance in the last fit raises TypeError and loses all peaks found.)",
"all data, initial peaks, functions, optimisers (any evaluations, any result, any failure), evaluators",
"The search makes unboundedly many fits with results that depend on the optimiser; no test covers all optimisers.",
[MC+"ModelCluster.fit",MC+"ModelCluster.prune",MC+"ModelCluster.augment",MC+"ModelCluster.quality",MC+"ModelCluster.estimatepeak",PE+"extract_single"])
p("C96","The report of a covariance object",
"str() of a covariance object that has a model and its matrix is one line per part with one entry 'value (uncertainty)' per parameter, in order, where value is the parameter of that part and uncertainty the root of its variance (0 for a fixed one; after transform, those of the transformed parameters); prettypar gives the single entries, get the pair of numbers. Without model or matrix both give the text 'Model and/or Covariance matrix undefined.' and do not raise. (Finding: an object used for a second model still accepts the designations of parameters of the first one and reports for them parameters of other parts.)",
"all models, matrices, formats and designations; all previous uses of the object",
"Numbering is built by two nested loops over parts of any size and survives in the object; every model and history must be numbered right.",
[MC+"ModelCovariance.__str__",MC+"ModelCovariance.prettypar",MC+"ModelCovariance.get",MC+"ModelCovariance.setcovariance"])
p("C97","The covariance returned by fit_single and extract_single",
"Asking for a covariance does not change a fit. After a fit with a free parameter that is kept, the covariance object describes the parts as they were fitted (peaks, then the baseline if it took part): the values of the parameters in the requested format, and for every two parameters the optimiser's covariance times the squared deviation over (points - free parameters), 0 for fixed ones, carried over by the gradients of the change of format. The peaks of the result are among these parts; they are exactly these, numbered alike, if none was cleaned up and the fitted positions are in order. If no fit took place, or it raised inside, or nothing was free, the object stays as it was, and for the new object of fit_single and extract_single the report says undefined. fit_single and extract_single return the cluster of C72 and C68 and the covariance of their last fit. (Findings: after a fit that is not kept the covariance describes the rejected parameters although the result has the old ones; when the last fit changes the order of peaks, or removes one, the numbering of the covariance is not that of the result.)",
"all clusters, optimisers (any result and matrix), functions, formats, options",
"Which of the outcomes applies depends on the optimiser and on quality comparisons; the matrix formula must hold for any number of parts.",
[MC+"ModelCluster.fit",S+"modelparts.py:ModelParts.fit",PE+"extract_single",PE+"fit_single",MC+"ModelCovariance.setcovariance",MC+"ModelCovariance.transform"])
p("C98","The peaks of a result have the values their functions need",
"If the initial peaks and the baseline have as many values and flags as their functions have parameters, then so have all peaks and the baseline that extract_single (at any depth), fit_single, PDFPeakExtraction.extract and fit leave, whatever was estimated, fitted, scaled at a boundary, cleaned up, joined, pruned and replaced by a function with ripples. Peaks that were not given are removable, with all parameters free and a function that can be replaced.",
"all data, initial peaks, baselines, peak functions that keep the number of parameters in a change of format, optimisers",
"The peaks pass through arbitrarily many fits, conversions and recursions; a single one that drops or adds a value is enough.",
[PE+"extract_single",PE+"fit_single",PPE+"extract",PPE+"fit",MC+"ModelCluster.fit",MC+"ModelCluster.estimatepeak"])
p("C99","With the peak functions of the package every reported peak is a proper one",
"With Gaussian and GaussianOverR (with or without termination ripples) every peak that extract_single, fit_single, PDFPeakExtraction.extract and fit leave is reported, in the format \"pwa\", as three numbers: its position, a width between 0 and the maxwidth of its function, an area that is not negative; these three numbers determine the curve of the peak, which is nowhere negative. estimatepeak fails exactly when fewer than three points of the cluster are above the baseline; else it makes a peak of the first function whose position lies between two such points and which is there as high as the highest point above the baseline. match_at(x, y) with 0 < y <= the sum of free peaks that do not have their maximum at x makes that sum y, and every peak keeps the place and height of its maximum.",
"all data, initial peaks of these functions, optimisers (whatever they return), maximal widths, depths of recursion",
"What the optimiser returns is unbounded (any internal width, any sign of the area), and passes through scaling, joining, pruning and conversions before it is reported.",
[PE+"extract_single",PE+"fit_single",PPE+"extract",PPE+"fit",MC+"ModelCluster.estimatepeak",S+"peaks/gaussian.py:Gaussian",S+"peaks/gaussianoverr.py:GaussianOverR",S+"peaks/terminationripples.py:TerminationRipples"])
p("C100","The clustering does not depend on the units of the data",
"If the coordinates are replaced by a*x+b (a > 0), the resolution by a times itself, and the values by any strictly increasing function of them, then after the same constructor call and the same calls of next, reset_clusters and combine_clusters (whatever they raised) the object shows the same clusters, last point, last cluster, full clusters, slices and adjacent groups, and find_nearest_cluster and find_nearest_cluster2 name the same cluster at the distance in the new unit.",
"all data, resolutions, a > 0, b, strictly increasing functions, series of calls, queries",
"It relates two executions, for every pair of units and every series of calls; a test compares one pair.",
[DC+"__next__",DC+"find_nearest_cluster",DC+"find_nearest_cluster2",DC+"combine_clusters",DC+"reset_clusters",DC+"_setdata"])
p("C101","What the boundaries of the clusters are, and that they cannot be drawn",
"cluster_boundaries() of an object with data returns each number once in increasing order: the mid-points, in coordinate and in value, between a cluster end and the data point next to it, mixed in one list, and one NaN if a cluster begins at the first of several points. Because these are not pairs, plot() always raises IndexError, and animate() does for more than one point, leaving the object as after reset_clusters() and one step; only with one point does it return, and then it restores the state.",
"all data, states reached by any calls",
"animate promises to restore whatever state the object has; which state that is depends on the history.",
[DC+"cluster_boundaries",DC+"plot",DC+"animate"])
p("C102","The covariance returned by PDFPeakExtraction.extract and fit",
"extract() ends, raises and leaves the model of C81 whether or not the covariance is looked at; the covariance object it returns is undefined (no fit took place, or nothing was free), or describes the parts of the last fit to the data of the result: their values in the requested format and, for every two parameters, the optimiser's covariance scaled by the squared deviation over (points - free parameters) and carried over by the gradients of the change of format; if that fit was kept, the peaks of the result are among these parts, and are exactly these in this order if none was removed and the positions are in order. fit() returns likewise the covariance of the initial peaks and the baseline. (Finding: after a fit that is taken back the object returned has the rejected parameters.)",
"all data, variables, initial peaks and baselines with as many values as parameters, peak functions, optimisers, resamplings, depths of recursion",
"Which fit is the last, whether it is kept, and the matrix for any number of parts depend on the optimiser's answers.",
[PPE+"extract",PPE+"fit",MC+"ModelCluster.fit",MC+"ModelCovariance.setcovariance"])
p("C103","What a run of the program srmise leaves",
"If srmise ends without an exception, the extraction it was asked for was performed, the file of --save has the complete text of the extraction after it, the file of --pwa its complete summary (the summary if both are the same file), every other file is as before, and the covariance, the extraction and the covariance again were printed (the extraction only, without an extraction). Whatever happens, a file is as before or has one of these complete texts; if the extraction raises, every file is as before and nothing is printed. (Findings: the messages \"Could not save ...\" can never be printed, because their handlers wait for an exception that writing does not raise; a --save file that cannot be opened ends the program with OSError after a successful extraction, with no summary and no peaks printed; --pwa with --no-extract ends with SrMiseError before anything is printed.)",
"all options, initial contents of all files, results of the extraction, files that cannot be opened",
"It ranges over every file, every combination of options and every point at which a step raises.",
[S+"applications/extract.py:main",PE+"write",PPE+"writepwa"])
p("C104","The extracted peaks do not depend on the units of the data",
"If the coordinates are multiplied by a > 0 and the intensities by k > 0, and with them the cluster resolution, the range, the uncertainties, the baseline, the initial peaks and the peak functions (maximal width), then extract_single, fit_single, estimate_peak and add_peaks raise the same exceptions or give the same result in the new units: the same number of peaks in the same order with the same flags and borders, positions and widths times a, areas of Gaussians times a k (of Gaussian/r times a squared k); the quality is the same number and all default variables are the converted ones. This needs an optimiser that takes the same steps in both units, as MINPACK's does. (Finding: it fails for peaks whose parameters were given as integers, which are truncated in the unit of the user.)",
"all data, variables, initial peaks, baselines, factors a, k > 0, optimisers with the same steps in both units, depths of recursion",
"It relates two executions for every pair of units; an absolute constant at any of hundreds of comparisons would break it for some data only.",
[PE+"extract_single",PE+"fit_single",PE+"estimate_peak",PE+"add_peaks",PE+"defaultvars",MC+"ModelCluster.quality",S+"peaks/gaussian.py:Gaussian",S+"peaks/gaussianoverr.py:GaussianOverR"])
p("C105","What the user holds fixed stays fixed",
"Every peak in the result of extract_single (at any depth), fit_single, PDFPeakExtraction.extract and fit is, each from another one, an initial peak or a new one, changed in the values of its free parameters only; the non-removable initial peaks are exactly the non-removable peaks of the result; the baseline is the given one. Wherever the initial peak or the baseline holds a value fixed, the result has the same value up to what the function itself does not distinguish: exactly the same for functions that do not normalise their parameters (baselines), and for Gaussian and GaussianOverR (with or without ripples) the same reported position, width and area. (A fixed negative area is stored as a positive one afterwards.)",
"all data, initial peaks with any flags, baselines, optimisers, functions, depths of recursion",
"The value passes through arbitrarily many fits, scalings at borders, joins, prunings and recursions chosen by the data; one write to a fixed entry anywhere would break it.",
[PE+"extract_single",PE+"fit_single",PPE+"extract",PPE+"fit",S+"modelparts.py:ModelPart.update",S+"peaks/base.py:Peak.scale_at",MC+"ModelCluster.fit"])
p("C106","A PDF in other units",
"With r multiplied by a > 0, G(r) (and its uncertainties) by k > 0, qmax divided by a, cres and range multiplied by a, and initial peaks, baseline and given peak functions converted: find_qmax gives the old value and uncertainty divided by a; setdata, resample, and TerminationRipples' value and Jacobian give the converted results; PDFPeakExtraction.extract and fit end with the same exception or with the converted object: the same peaks in the same order with converted parameters, the same kind of extraction, the same variables. Exception: if no peak function is given, the default GaussianOverR(0.7) has an absolute maximum width, which is not converted.",
"all data, variables, units, peak functions, numbers of resamplings, optimisers that take the same steps in both units",
"A constant with a unit anywhere in the sampling, the error scaling, the Fourier filter or the loop around them would show only for particular data; tests use one unit.",
[PPE+"extract",PPE+"fit",PPE+"setdata",PPE+"defaultvars",PPE+"resampledata",PPE+"errorscale",S+"pdfpeakextraction.py:find_qmax",S+"pdfpeakextraction.py:resample",S+"pdfpeakextraction.py:stdratio",S+"peaks/terminationripples.py:TerminationRipples.value",S+"peaks/terminationripples.py:TerminationRipples.jacobian"])
p("C107","Extraction leaves the caller's objects alone and can be repeated",
"PDFPeakExtraction.extract and PeakExtraction.extract_single, whether they return or raise, change nothing of the initial peaks and of the list of peak functions the caller gave, and of the baseline at most the values of free parameters. If the baseline has no free parameters, or some point of the (resampled) data is higher above baseline and initial peaks than the first point, no object of the caller is changed at all; then calling extract again, any number of times, gives the same result or the same exception. (Findings: if the first point is the highest one, the caller's own baseline is fitted: a second extraction finds other peaks; and if the last fit is rejected, the caller's baseline is left at the rejected values, though the result has the old ones.)",
"all data, variables, initial peaks, baselines, optimisers, numbers of resamplings, numbers of repetitions",
"Which of many clusters keeps the caller's baseline object through copying, joining, recursive searches and failing fits depends on the data; a test sees one path.",
[PPE+"extract",PE+"extract_single",MC+"ModelCluster.__init__",MC+"ModelCluster.fit",MC+"ModelCluster.join_adjacent",S+"modelparts.py:ModelParts.fit"])
p("C108","The order of the initial peaks does not matter",
"If the same initial peaks (no two at the same position) are given in another order, extract_single and PDFPeakExtraction.extract raise the same exception or find the same peaks, baseline and quality: always if argsort is stable, and otherwise if no peak is found exactly at the position of an initial peak or of another one.",
"all data, variables, lists of initial peaks and their permutations, baselines, optimisers, depths of recursion, numbers of resamplings",
"It relates two executions for every permutation of every list; a place where the list is indexed before it is sorted would show only for some orders and data.",
[PE+"extract_single",PPE+"extract",MC+"ModelCluster.addexternalpeaks",MC+"ModelCluster.replacepeaks",S+"peaks/base.py:Peaks.argsort"])
p("C109","Restricting the range is restricting the data",
"With cres, peak functions and effective uncertainties given, extract_single and fit_single with a range [a, b] that contains at least one point do exactly what they do with the data points in [a, b] (and their uncertainties) and no range: the same result or exception, the same effect on the caller's objects. The same holds of PDFPeakExtraction.extract with qmax 0 and of fit with qmax 0 or without Nyquist sampling. (Finding: with qmax > 0 the data outside the range do matter, since all data are resampled.)",
"all data, ranges (also with one end open), variables, optimisers, depths of recursion",
"Data outside the range must not leak through any estimate, slice or boundary test; that is a relation between two runs for every range.",
[PE+"extract_single",PE+"fit_single",PE+"getrangeslice",PE+"defaultvars",PPE+"extract",PPE+"fit"])
p("C110","What PeakExtraction.plot draws",
"After a successful extract_single or fit_single, plot() draws exactly the data of the range and, for each peak of the result in order, the baseline plus that peak at these points, and changes nothing; without a result it first completes the variables and draws the initial peaks on the baseline in the same way, changing nothing but unset variables, or raises what defaultvars raises. With any keyword it draws one curve, the baseline plus all peaks. (Finding: that includes joined=False; the keywords are not passed on.)",
"all data, ranges, variables, peaks, baselines, optimisers, keywords",
"The curves must belong to the right points for every range, slice and number of peaks.",
[PE+"plot",MC+"ModelCluster.plottable",PE+"getrangeslice"])
p("C111","A cluster written on its own can be read on its own",
"ModelCluster.writestr() without pfbaselist and/or blfbaselist writes the functions the cluster uses with it (exactly if it has a baseline and peak functions, each function can be written with that list, and there are enough values and uncertainties), and factory() without the same lists rebuilds them, each after its base: the cluster comes back with the same peaks, baseline, peak functions, slice and evaluator and the data as formatted by %g; what shared a function shares it again, what did not does not. (Findings: a cluster without a baseline, or without peak functions, raises AttributeError or TypeError although there is a text for it; with the package as it is the evaluator is never found and reading ends in AttributeError.)",
"all clusters, functions with or without bases, orders of the list of functions, given and missing lists, formats of numbers",
"The round trip must hold for every cluster and every order in which the functions happen to be written.",
[MC+"ModelCluster.writestr",MC+"ModelCluster.factory",S+"basefunction.py:BaseFunction.factory"])
p("C112","What clusters that share data and baselines do to each other",
"Clusters made with the same arrays, copied, or joined share their arrays, and, unless copied, their baseline. After any series of calls on any of them (including calls that raise): the r_cluster, y_cluster and error_cluster of every cluster show its slice of its arrays; abscissae and uncertainties are as they were, and to the ordinates exactly the peaks given to addexternalpeaks have been added, on every point and for every cluster with these ordinates; a cluster whose baseline no other cluster has keeps attributes and value whatever is called on the others; a copy has the value of its original, its own baseline, and working on it leaves the original alone; a cluster marked never_fit has no point above its uncertainty over the baseline as long as no external peaks were added and no baseline fitted. (Findings: external peaks added to one cluster are missing from the model of all others on the same data, whose residual grows by them; never_fit is not renewed then; a fit of a shared baseline changes it for the other clusters, even if the fit is rejected.)",
"all numbers of clusters, arrays and baselines, all ways they are shared, all series of calls, all outcomes of the calls, all worlds (optimiser, estimates, evaluators)",
"Sharing shows only in series of calls on several clusters; the number of series, and of ways to share, is unbounded.",
[MC+"ModelCluster.__init__",MC+"ModelCluster.addexternalpeaks",MC+"ModelCluster.join_adjacent",MC+"ModelCluster.change_slice",MC+"ModelCluster.fit"])
p("C113","A cluster comes back with its functions as they were built on one another",
"ModelCluster.writestr() of a cluster whose functions are any objects built on one another (safefunctionlist lists them) never fails for lack of a base: it raises exactly if there is no baseline, no peak functions, or too few ordinates or uncertainties. factory() makes of it new objects of the same classes, with the same metadata and, all the way down, the bases that stand for their bases; peaks, baseline and peak functions refer to these. What was one object — also a base that two functions share — is one object again, what were two are two.",
"all clusters, all functions and bases of any depth, shared or not, all orders in which Python's set gives them, all texts of class, module and metadata that Python can read back",
"That order, numbering of bases and rebuilding fit together for every forest of functions is a statement over unboundedly many shapes.",
[MC+"ModelCluster.writestr",MC+"ModelCluster.factory",S+"basefunction.py:BaseFunction.safefunctionlist",S+"basefunction.py:BaseFunction.writestr",S+"basefunction.py:BaseFunction.factory"])
p("C114","Fitting again does not make the result worse, while the objects hold it",
"PDFPeakExtraction.fit() works on the user's list of initial peaks and baseline object. Over any number of fits, whatever they end with, the variables keep the values of the first, and nothing but these two objects changes. After a fit that ends normally, either the result are the peaks and the baseline as they were (the fit was rejected), or the baseline object holds the baseline of the result and the list all peaks of the result (exactly these, if no parameter of the baseline is free). In a history of fits after each of which the objects hold the result, every result covers the same data, and none costs more than any before it.",
"all data, variables, initial peaks, baselines, all numbers of calls, all optimisers (whatever they return)",
"Histories of calls are unbounded, and the optimiser is arbitrary.",
[PPE+"fit",PE+"fit_single",MC+"ModelCluster.fit"])
p("C115","Converting the parameters of a model in place",
"ModelParts.transform(in_format, out_format) goes through the parts in order: each gets the parameters its function makes of its own, or, if the function refuses with ValueError (a format it does not know), stays as it was; nothing else of a part changes, none is added or lost. It fails exactly if the function of some part raises another exception: that is raised, the parts before have been converted, this one and the later ones have not. A misspelt format is no error and changes nothing. For peaks of the package with a baseline, 'internal' to 'pwa' leaves in every peak position, width and area and the baseline as it was, and back to 'internal' gives peaks for which the same numbers are read and with the same curves. (Findings: a width that is too large stops the conversion half-way; in between, values and texts of the model take the numbers for internal ones; a part that is listed twice is converted twice.)",
"all models, formats, functions (whatever their conversions raise), parameters, lists with repeated parts",
"How many parts are converted when one refuses or fails, for every length, order and sharing, is not settled by examples.",
[S+"modelparts.py:ModelParts.transform",BF+"BaseFunction.transform_parameters",S+"peaks/gaussian.py:Gaussian",S+"peaks/gaussianoverr.py:GaussianOverR"])
p("C116","When two clusterings are equal",
"== of two DataClusters without NaN holds exactly if data, resolution, order, clusters and progress are the same; equal objects answer every query alike, and do so and stay equal after the same calls of next, reset_clusters and combine_clusters, whatever these raise. An object that holds NaN is equal to none, not to itself. After any histories two objects of the same data are equal once both are reset. (Finding: a reset object is not equal to a new one of the same data, though it proceeds as one; once next has clustered a point of both they are equal and remain so.)",
"all data, resolutions, orders of ties, histories of calls on both objects",
"Equality has to be compatible with every history of calls on two objects.",
[DC+"__eq__",DC+"reset_clusters",DC+"__next__"])
p("C117","What is printed of a result",
"str(model) has one line per part, in order, with what the function of the part makes of its parameters in its default output format; it raises what the first function raises that refuses. str(cluster) gives its slice, the quality (sum of squared weighted deviations of the data from baseline and peaks plus the penalty for the free parameters), the parameters of the baseline and the peaks; for the cluster that extract_single returns or fit_single leaves these are deviations from the data of the requested range. str(extraction) has the initial peaks and the baseline of the variables and then the text of the extracted cluster, or that there is none. With the peak functions of the package and any initial peaks of these, everything found can be printed, and each line is position, full width at half maximum and area of the peak, the width at most the limit of its function. (Finding: the text takes parameters for internal ones; after transform to 'pwa' (C115) another width is printed.)",
"all models, clusters, extractions, functions whose values are computed point by point, data, ranges, evaluators, all runs of extract_single and fit_single",
"The printed numbers must be those of the curve for every result of every search.",
[S+"modelparts.py:ModelParts.__str__",S+"modelparts.py:ModelPart.__str__",MC+"ModelCluster.__str__",PE+"__str__"])
p("C118","A peak built from numbers, and a printed result typed in again",
"function.actualize(pars, in_format, free, removable, static_owner) gives a part exactly if the function converts pars to as many internal parameters as it has and free (all free if missing) has as many flags; the part then has these, and else what the conversion raises or ValueError is raised. A peak of the package built from position, width and area in format 'pwa' (or mean, standard deviation and area in 'mu_sigma_area') is read and printed with these numbers (absolute values), can be given to a search as an initial peak, and its curve is the bell of these numbers; a width above the limit is refused with SrMiseTransformationError. What is printed of any peaks of the package, in particular of a result of a search, makes when typed in (format 'pwa', same functions) peaks of which the same is printed and with the same curves. (Findings: without a format the numbers are taken for internal ones, though what is printed is 'pwa'; a width below minus the limit gives NaN instead of an error; typed-in peaks are free and removable whatever the printed ones were.)",
"all functions, numbers, formats, flags, models of peaks of the package, results of all searches",
"The round trip through what is printed must hold for every real parameter of every result.",
[S+"peaks/base.py:PeakFunction.actualize",S+"baselines/base.py:BaselineFunction.actualize",S+"modelparts.py:ModelPart.__init__",BF+"BaseFunction.transform_parameters",S+"peaks/gaussian.py:Gaussian",S+"peaks/gaussianoverr.py:GaussianOverR"])
p("C119","The file of an extraction holds what was set and found",
"What PeakExtraction.writestr returns, and write puts into the file, holds, under its headings, everything: each data column that is set, under its name, with its values as formatted by %g; the indices of the peak functions in the list written, the resolution, the evaluator's name, the range, the extraction type and the metadata; the texts of all functions in use under their numbers; the initial peaks and the baseline, from which the factories make the same objects again; and the text of the extracted cluster, from which ModelCluster.factory makes the cluster again if the evaluator is found. (Although readstr cannot read it, C78, nothing is lost. Finding: a column longer than the last one is cut silently.)",
"all extractions for which writestr returns, all functions and metadata whose texts do not start lines with #, all numbers of points, peaks and functions",
"That no line of any function, peak or number can be taken for a heading, and that rows and columns fit for every combination of columns, is a statement over unboundedly many texts.",
[PE+"writestr",PE+"write",PE+"writemetadata",S+"modelparts.py:ModelPart.writestr"])
p("C120","Parts of a model, and its covariance",
"Indexing a model works as on a list and keeps the objects: model[a:b:c] and, for b and c left out or numbers, model[a, b] are models holding the same part objects at exactly the positions of the slice, forwards for a positive step and backwards for a negative one; model[:k] and model[k:] together are the whole model for every integer k; model[i] is the part itself, and IndexError exactly outside -len..len-1; a step of zero is ValueError, a tuple of another length TypeError. (Finding: model.covariance() never returns a matrix, only None, although documented to; it raises ValueError or IndexError for the first keyword that is not one character followed by the number of a part, and does not check that the character is f.)",
"all models, all integers as index, start, end and step (also left out), all keywords and formats",
"Which positions a slice has is a statement over all lengths and all integers, negative and beyond the ends included; tests use a few.",
[S+"modelparts.py:ModelParts.__getitem__",S+"modelparts.py:ModelParts.covariance"])
p("C121","Animations of a selection",
"animate_classprobs never changes a result and shows at every uncertainty the peaks of a model of the class that is the best there, namely the best of that class at the uncertainty at which the class became the best, in order of position. (Findings: the best model of that class may have changed since and the old one is still shown; the baseline shown is always that of the first model. animate_probs overwrites a result: the cluster it shows holds the very list of the model of the first result shown, a, so that whenever another model becomes the best its peaks replace those of result a for good; no other result is changed. When a is the best again, the peaks of the other model are still shown, with the baseline of a.)",
"all results, uncertainties, rankings, classes and orders in which the best model or class changes",
"What is shown depends on the whole history of changes of the best model; the overwritten result shows only after the best has changed, and wrongly shown models only after it has changed back.",
[S+"multimodelselection.py:MultimodelSelection.animate_probs",S+"multimodelselection.py:MultimodelSelection.animate_classprobs",S+"modelcluster.py:ModelCluster.replacepeaks",S+"peakstability.py:PeakStability.setcurrent"])
p("C122","The plot of class probabilities",
"plot3dclassprobs(dGs, classes, probfilter, ...) never returns with a Python whose zip makes an iterator, which is every Python the package supports: it raises for every selection, all uncertainties, classes, ranges of probabilities and scales, whatever the drawing does (finding: the line that closes the polygons needs a list). With a zip that makes a list a call that returns has drawn at least one class, and, in the order asked for, exactly the classes whose highest probability over dGs is in probfilter, bounds included, each as the closed polygon under its own probabilities at dGs * scale.",
"all selections, uncertainties, lists of classes, ranges, scales, and all behaviours of the drawing library",
"That no choice of keywords avoids the exception, and that the filter holds for all probabilities, are statements over all selections and keywords.",
[S+"multimodelselection.py:MultimodelSelection.plot3dclassprobs"])
json_lines="\n".join(json.dumps(x) for x in P)+"\n"
open("/verif/properties.jsonl","w").write(json_lines)
print(len(P))
