import Verif.Utils

/-
Model of wrappers/what_sklearn.py: the declarations, the choice between them, and `what()` of sklearn objects.
(`whatamize_object` on classes is in ClassGraph.)

Simplified: an entry of the registry is the short name and the non-id parameters; an estimator is its class name, what its
`get_params(deep=False)` gives or raises, and itself as a value.
-/
namespace Whatami

/-- wrappers/what_sklearn.py:73-94 `_ObjectParametersMeta`: what `what()` reads of it. -/
structure SklMeta where
  short : Str
  nonids : List Str
deriving DecidableEq, Repr

/-- `_SKLRegistry` (wrappers/what_sklearn.py:64), by class name. -/
abbrev SklReg := List (Str × SklMeta)

/-- The arguments of a call of `_a` (wrappers/what_sklearn.py:97): the name of the class, the nickname, the non-id parameters. -/
abbrev Declaration := Str × Option Str × List Str

/-- wrappers/what_sklearn.py:97-102 `_a`, with 90: without a nickname the name of the class is used. -/
def declare (override : Bool) (reg : SklReg) (d : Declaration) : R SklReg :=
  if !override && dhas reg d.1 then .error .exception
  else .ok (dset reg d.1 { short := d.2.1.getD d.1, nonids := d.2.2 })

/-- A sequence of calls `_a(...)` (wrappers/what_sklearn.py:105-558), with the default `override=True`. -/
def declareAll (reg : SklReg) : List Declaration → R SklReg
  | [] => .ok reg
  | d :: ds =>
    match declare true reg d with
    | .error e => .error e
    | .ok reg' => declareAll reg' ds

/-- A `StrictVersion` (wrappers/what_sklearn.py:565): major, minor, patch, and the pre-release tag (`false` for a, `true` for b) with its number. -/
structure SVersion where
  major : Nat
  minor : Nat
  patch : Nat
  pre : Option (Bool × Nat) := none
deriving DecidableEq, Repr

/-- The numbers to be compared, in this order: a pre-release comes before the release (`StrictVersion._cmp`, used in
wrappers/what_sklearn.py:568-577). -/
def SVersion.key (v : SVersion) : List Nat :=
  [v.major, v.minor, v.patch] ++ match v.pre with
    | none => [1, 0, 0]
    | some (b, n) => [0, if b then 1 else 0, n]

/-- `<=` on lists of numbers, and so on versions (wrappers/what_sklearn.py:577). -/
def numsLe : List Nat → List Nat → Bool
  | [], _ => true
  | _ :: _, [] => false
  | a :: as, b :: bs => if a = b then numsLe as bs else a < b

/-- `v <= w` (wrappers/what_sklearn.py:577). -/
def SVersion.le (v w : SVersion) : Bool := numsLe v.key w.key

/-- wrappers/what_sklearn.py:575-578: the loop that chooses; the last pair stays if none breaks. -/
def chooseVersion {α : Type} (installed : SVersion) : List (SVersion × α) → Option (SVersion × α)
  | [] => none
  | [x] => some x
  | x :: y :: r => if installed.le x.1 then some x else chooseVersion installed (y :: r)

/-- wrappers/what_sklearn.py:105-210. -/
def table0_15_1 : List Declaration := [
  (c!"RandomForestClassifier", some c!"rfc", [c!"verbose", c!"n_jobs", c!"oob_score"]),
  (c!"RandomForestRegressor", some c!"rfr", [c!"verbose", c!"n_jobs", c!"oob_score"]),
  (c!"ExtraTreesClassifier", some c!"etc", [c!"n_jobs", c!"verbose", c!"oob_score"]),
  (c!"ExtraTreesRegressor", some c!"etr", [c!"n_jobs", c!"verbose", c!"oob_score"]),
  (c!"GradientBoostingClassifier", some c!"gbc", [c!"verbose"]),
  (c!"GradientBoostingRegressor", some c!"gbr", [c!"verbose"]),
  (c!"Ridge", some c!"ridge", [c!"copy_X"]),
  (c!"Lasso", some c!"lasso", [c!"copy_X"]),
  (c!"ElasticNet", some c!"elnet", [c!"copy_X"]),
  (c!"Lars", some c!"lars", [c!"verbose", c!"copy_X", c!"fit_path"]),
  (c!"LassoLars", some c!"lassolars", [c!"verbose", c!"copy_X", c!"fit_path"]),
  (c!"OrthogonalMatchingPursuit", some c!"omp", [c!"copy_X", c!"copy_Xy", c!"copy_Gram"]),
  (c!"BayesianRidge", some c!"bayridge", [c!"copy_X", c!"verbose"]),
  (c!"ARDRegression", some c!"ardr", [c!"copy_X", c!"verbose"]),
  (c!"LogisticRegression", some c!"logreg", []),
  (c!"SGDClassifier", some c!"sgdc", [c!"verbose", c!"n_jobs"]),
  (c!"SGDRegressor", some c!"sgdr", [c!"verbose"]),
  (c!"Perceptron", some c!"perceptron", [c!"verbose", c!"n_jobs"]),
  (c!"LinearRegression", some c!"lr", [c!"copy_X"]),
  (c!"SVC", some c!"svc", [c!"cache_size", c!"verbose"]),
  (c!"NuSVC", some c!"nusvc", [c!"cache_size", c!"verbose"]),
  (c!"LinearSVC", some c!"linsvc", [c!"verbose"]),
  (c!"SVR", some c!"svr", [c!"cache_size", c!"verbose"]),
  (c!"NuSVR", some c!"nusvr", [c!"cache_size", c!"verbose"]),
  (c!"GaussianNB", some c!"gnb", []),
  (c!"MultinomialNB", some c!"mnb", []),
  (c!"BernoulliNB", some c!"bnb", []),
  (c!"DecisionTreeClassifier", some c!"dtc", []),
  (c!"DecisionTreeRegressor", some c!"dtr", []),
  (c!"KNeighborsClassifier", some c!"knc", [c!"warn_on_equidistant"]),
  (c!"RadiusNeighborsClassifier", some c!"rnc", [c!"outlier_label"]),
  (c!"KNeighborsRegressor", some c!"knr", [c!"warn_on_equidistant"]),
  (c!"RadiusNeighborsRegressor", some c!"rnr", []),
  (c!"NearestCentroid", some c!"nc", []),
  (c!"PLSRegression", some c!"plsr", [c!"copy"]),
  (c!"PLSCanonical", some c!"plscan", [c!"copy"]),
  (c!"CCA", some c!"cca", [c!"copy"]),
  (c!"PLSSVD", some c!"plssvd", []),
  (c!"GaussianProcess", some c!"gp", [c!"storage_mode", c!"verbose"]),
  (c!"KMeans", none, [c!"n_jobs", c!"copy_x", c!"verbose", c!"precompute_distances"]),
  (c!"MiniBatchKMeans", none, [c!"verbose"]),
  (c!"MeanShift", none, [c!"n_jobs"]),
  (c!"AffinityPropagation", none, [c!"copy", c!"verbose"]),
  (c!"SpectralClustering", none, []),
  (c!"DBSCAN", none, []),
  (c!"AgglomerativeClustering", none, [c!"memory"]),
  (c!"Birch", none, [c!"compute_labels", c!"copy"]),
  (c!"FeatureAgglomeration", none, [c!"memory"]),
  (c!"SpectralCoclustering", none, [c!"n_jobs"]),
  (c!"SpectralBiclustering", none, [c!"n_jobs"]),
  (c!"Normalizer", none, [c!"copy"]),
  (c!"MinMaxScaler", none, [c!"copy"]),
  (c!"FeatureUnion", some c!"f_union", [c!"n_jobs"])]

/-- wrappers/what_sklearn.py:213-558. -/
def table0_19_1 : List Declaration := [
  (c!"CalibratedClassifierCV", none, []),
  (c!"AffinityPropagation", none, [c!"copy", c!"verbose"]),
  (c!"AgglomerativeClustering", none, [c!"memory"]),
  (c!"Birch", none, [c!"copy", c!"compute_labels"]),
  (c!"DBSCAN", none, [c!"n_jobs"]),
  (c!"FeatureAgglomeration", none, [c!"memory"]),
  (c!"KMeans", none, [c!"copy_x", c!"n_jobs", c!"precompute_distances", c!"verbose"]),
  (c!"MiniBatchKMeans", none, [c!"compute_labels", c!"verbose"]),
  (c!"MeanShift", none, [c!"n_jobs"]),
  (c!"SpectralClustering", none, [c!"n_jobs"]),
  (c!"SpectralCoclustering", none, [c!"n_jobs"]),
  (c!"SpectralBiclustering", none, [c!"n_jobs"]),
  (c!"EmpiricalCovariance", none, []),
  (c!"EllipticEnvelope", none, [c!"store_precision"]),
  (c!"GraphLasso", none, [c!"verbose"]),
  (c!"GraphLassoCV", none, [c!"n_jobs", c!"verbose"]),
  (c!"LedoitWolf", none, []),
  (c!"MinCovDet", none, []),
  (c!"OAS", none, []),
  (c!"ShrunkCovariance", none, []),
  (c!"PLSRegression", some c!"plsr", [c!"copy"]),
  (c!"PLSCanonical", some c!"plscan", [c!"copy"]),
  (c!"CCA", some c!"cca", [c!"copy"]),
  (c!"PLSSVD", some c!"plssvd", [c!"copy"]),
  (c!"DictionaryLearning", none, [c!"n_jobs", c!"verbose"]),
  (c!"FactorAnalysis", none, [c!"copy"]),
  (c!"FastICA", none, []),
  (c!"IncrementalPCA", none, [c!"copy"]),
  (c!"KernelPCA", none, [c!"copy_X", c!"n_jobs"]),
  (c!"LatentDirichletAllocation", none, [c!"n_jobs", c!"verbose"]),
  (c!"MiniBatchDictionaryLearning", none, [c!"n_jobs", c!"verbose"]),
  (c!"MiniBatchSparsePCA", none, [c!"callback", c!"n_jobs", c!"verbose"]),
  (c!"NMF", none, [c!"verbose"]),
  (c!"PCA", none, [c!"copy"]),
  (c!"SparsePCA", none, [c!"n_jobs", c!"verbose"]),
  (c!"SparseCoder", none, [c!"n_jobs"]),
  (c!"TruncatedSVD", none, []),
  (c!"LinearDiscriminantAnalysis", none, [c!"store_covariance"]),
  (c!"QuadraticDiscriminantAnalysis", none, [c!"store_covariance"]),
  (c!"DummyClassifier", none, []),
  (c!"DummyRegressor", none, []),
  (c!"AdaBoostClassifier", none, []),
  (c!"AdaBoostRegressor", none, []),
  (c!"BaggingClassifier", none, [c!"n_jobs", c!"oob_score", c!"verbose"]),
  (c!"BaggingRegressor", none, [c!"n_jobs", c!"oob_score", c!"verbose"]),
  (c!"ExtraTreesClassifier", some c!"etc", [c!"n_jobs", c!"oob_score", c!"verbose"]),
  (c!"ExtraTreesRegressor", some c!"etr", [c!"n_jobs", c!"oob_score", c!"verbose"]),
  (c!"GradientBoostingClassifier", some c!"gbc", [c!"verbose"]),
  (c!"GradientBoostingRegressor", some c!"gbr", [c!"verbose"]),
  (c!"IsolationForest", none, [c!"n_jobs", c!"verbose"]),
  (c!"RandomForestClassifier", some c!"rfc", [c!"verbose", c!"n_jobs", c!"oob_score"]),
  (c!"RandomForestRegressor", some c!"rfr", [c!"verbose", c!"n_jobs", c!"oob_score"]),
  (c!"RandomTreesEmbedding", some c!"rte", [c!"verbose", c!"n_jobs"]),
  (c!"VotingClassifier", none, [c!"n_jobs"]),
  (c!"DictVectorizer", none, []),
  (c!"FeatureHasher", none, []),
  (c!"PatchExtractor", none, []),
  (c!"CountVectorizer", none, []),
  (c!"HashingVectorizer", none, []),
  (c!"TfidfTransformer", none, []),
  (c!"TfidfVectorizer", none, []),
  (c!"GenericUnivariateSelect", none, []),
  (c!"SelectPercentile", none, []),
  (c!"SelectKBest", none, []),
  (c!"SelectFpr", none, []),
  (c!"SelectFdr", none, []),
  (c!"SelectFromModel", none, []),
  (c!"SelectFwe", none, []),
  (c!"RFE", none, [c!"verbose"]),
  (c!"RFECV", none, [c!"n_jobs", c!"verbose"]),
  (c!"VarianceThreshold", none, []),
  (c!"GaussianProcessClassifier", some c!"gpc", [c!"copy_X_train", c!"n_jobs"]),
  (c!"GaussianProcessRegressor", some c!"gpr", [c!"copy_X_train"]),
  (c!"CompoundKernel", none, []),
  (c!"ConstantKernel", none, []),
  (c!"DotProduct", none, []),
  (c!"ExpSineSquared", none, []),
  (c!"Exponentiation", none, []),
  (c!"Matern", none, []),
  (c!"PairwiseKernel", none, []),
  (c!"Product", none, []),
  (c!"RBF", none, []),
  (c!"RationalQuadratic", none, []),
  (c!"Sum", none, []),
  (c!"WhiteKernel", none, []),
  (c!"IsotonicRegression", none, []),
  (c!"AdditiveChi2Sampler", none, []),
  (c!"Nystroem", none, []),
  (c!"RBFSampler", none, []),
  (c!"SkewedChi2Sampler", none, []),
  (c!"KernelRidge", none, []),
  (c!"ARDRegression", some c!"ardr", [c!"copy_X", c!"verbose"]),
  (c!"BayesianRidge", some c!"bayridge", [c!"copy_X", c!"verbose"]),
  (c!"ElasticNet", some c!"elnet", [c!"copy_X"]),
  (c!"ElasticNetCV", some c!"elnetcv", [c!"copy_X", c!"n_jobs", c!"verbose"]),
  (c!"HuberRegressor", none, []),
  (c!"Lars", some c!"lars", [c!"copy_X", c!"fit_path", c!"verbose"]),
  (c!"LarsCV", some c!"larscv", [c!"copy_X", c!"fit_path", c!"n_jobs", c!"verbose"]),
  (c!"Lasso", some c!"lasso", [c!"copy_X"]),
  (c!"LassoCV", some c!"lassocv", [c!"copy_X", c!"n_jobs", c!"verbose"]),
  (c!"LassoLars", some c!"lassolars", [c!"copy_X", c!"fit_path", c!"verbose"]),
  (c!"LassoLarsCV", some c!"lassolarscv", [c!"copy_X", c!"fit_path", c!"n_jobs", c!"verbose"]),
  (c!"LassoLarsIC", some c!"lassolarsic", [c!"copy_X", c!"verbose"]),
  (c!"LinearRegression", some c!"linreg", [c!"copy_X", c!"n_jobs"]),
  (c!"LogisticRegression", some c!"logreg", [c!"n_jobs", c!"verbose"]),
  (c!"LogisticRegressionCV", some c!"logregcv", [c!"n_jobs", c!"verbose"]),
  (c!"MultiTaskLasso", none, [c!"copy_X"]),
  (c!"MultiTaskLassoCV", none, [c!"copy_X", c!"n_jobs", c!"verbose"]),
  (c!"MultiTaskElasticNet", none, [c!"copy_X"]),
  (c!"MultiTaskElasticNetCV", none, [c!"copy_X", c!"n_jobs", c!"verbose"]),
  (c!"OrthogonalMatchingPursuit", some c!"omp", []),
  (c!"OrthogonalMatchingPursuitCV", some c!"ompcv", [c!"copy", c!"n_jobs", c!"verbose"]),
  (c!"PassiveAggressiveClassifier", none, [c!"n_jobs", c!"verbose"]),
  (c!"PassiveAggressiveRegressor", none, [c!"verbose"]),
  (c!"Perceptron", some c!"perceptron", [c!"n_jobs", c!"verbose"]),
  (c!"RANSACRegressor", none, []),
  (c!"Ridge", some c!"ridge", [c!"copy_X"]),
  (c!"RidgeClassifier", none, [c!"copy_X"]),
  (c!"RidgeClassifierCV", none, []),
  (c!"RidgeCV", none, []),
  (c!"SGDClassifier", some c!"sgdc", [c!"n_jobs", c!"verbose"]),
  (c!"SGDRegressor", some c!"sgdr", [c!"verbose"]),
  (c!"TheilSenRegressor", none, [c!"copy_X", c!"n_jobs", c!"verbose"]),
  (c!"Isomap", none, [c!"n_jobs"]),
  (c!"LocallyLinearEmbedding", none, [c!"n_jobs", c!"neighbors_algorithm"]),
  (c!"MDS", none, [c!"n_jobs", c!"verbose"]),
  (c!"SpectralEmbedding", none, [c!"n_jobs"]),
  (c!"TSNE", none, [c!"verbose"]),
  (c!"BayesianGaussianMixture", none, [c!"verbose", c!"verbose_interval"]),
  (c!"GaussianMixture", none, [c!"verbose", c!"verbose_interval"]),
  (c!"GroupKFold", none, []),
  (c!"GroupShuffleSplit", none, []),
  (c!"KFold", none, []),
  (c!"LeaveOneGroupOut", none, []),
  (c!"LeavePGroupsOut", none, []),
  (c!"LeaveOneOut", none, []),
  (c!"LeavePOut", none, []),
  (c!"PredefinedSplit", none, []),
  (c!"RepeatedStratifiedKFold", none, []),
  (c!"ShuffleSplit", none, []),
  (c!"StratifiedKFold", none, []),
  (c!"StratifiedShuffleSplit", none, []),
  (c!"TimeSeriesSplit", none, []),
  (c!"GridSearchCV", none, [c!"error_score", c!"n_jobs", c!"pre_dispatch", c!"refit", c!"return_train_score", c!"verbose"]),
  (c!"RandomizedSearchCV", none, [c!"error_score", c!"n_jobs", c!"pre_dispatch", c!"refit", c!"return_train_score", c!"verbose"]),
  (c!"OneVsRestClassifier", none, [c!"n_jobs"]),
  (c!"OneVsOneClassifier", none, [c!"n_jobs"]),
  (c!"OutputCodeClassifier", none, [c!"n_jobs"]),
  (c!"ClassifierChain", none, []),
  (c!"MultiOutputClassifier", none, [c!"n_jobs"]),
  (c!"MultiOutputRegressor", none, [c!"n_jobs"]),
  (c!"BernoulliNB", some c!"bnb", []),
  (c!"GaussianNB", some c!"gnb", []),
  (c!"MultinomialNB", some c!"mnb", []),
  (c!"KernelDensity", none, []),
  (c!"KNeighborsClassifier", some c!"knc", [c!"n_jobs"]),
  (c!"KNeighborsRegressor", some c!"knr", [c!"n_jobs"]),
  (c!"LocalOutlierFactor", some c!"lof", [c!"n_jobs"]),
  (c!"RadiusNeighborsClassifier", some c!"rnc", []),
  (c!"RadiusNeighborsRegressor", some c!"rnr", []),
  (c!"NearestCentroid", some c!"nc", []),
  (c!"NearestNeighbors", none, [c!"n_jobs"]),
  (c!"BernoulliRBM", none, [c!"verbose"]),
  (c!"MLPClassifier", none, [c!"verbose"]),
  (c!"MLPRegressor", none, [c!"verbose"]),
  (c!"FeatureUnion", none, [c!"n_jobs"]),
  (c!"Pipeline", none, [c!"memory"]),
  (c!"Binarizer", none, [c!"copy"]),
  (c!"FunctionTransformer", none, []),
  (c!"Imputer", none, [c!"copy", c!"verbose"]),
  (c!"KernelCenterer", none, []),
  (c!"LabelBinarizer", none, []),
  (c!"LabelEncoder", none, []),
  (c!"MultiLabelBinarizer", none, []),
  (c!"MaxAbsScaler", none, [c!"copy"]),
  (c!"MinMaxScaler", none, [c!"copy"]),
  (c!"Normalizer", none, [c!"copy"]),
  (c!"OneHotEncoder", none, []),
  (c!"PolynomialFeatures", none, []),
  (c!"QuantileTransformer", none, [c!"copy"]),
  (c!"RobustScaler", none, [c!"copy"]),
  (c!"StandardScaler", none, [c!"copy"]),
  (c!"GaussianRandomProjection", none, []),
  (c!"SparseRandomProjection", none, []),
  (c!"LabelPropagation", none, [c!"n_jobs"]),
  (c!"LabelSpreading", none, [c!"n_jobs"]),
  (c!"LinearSVC", some c!"linsvc", [c!"verbose"]),
  (c!"LinearSVR", some c!"linsvr", [c!"verbose"]),
  (c!"NuSVC", some c!"nusvc", [c!"cache_size", c!"verbose"]),
  (c!"NuSVR", some c!"nusvr", [c!"cache_size", c!"verbose"]),
  (c!"OneClassSVM", some c!"ocsvm", [c!"cache_size", c!"verbose"]),
  (c!"SVC", some c!"svc", [c!"cache_size", c!"verbose"]),
  (c!"SVR", some c!"svr", [c!"cache_size", c!"verbose"]),
  (c!"DecisionTreeClassifier", some c!"dtc", []),
  (c!"DecisionTreeRegressor", some c!"dtr", []),
  (c!"ExtraTreeClassifier", none, []),
  (c!"ExtraTreeRegressor", none, [])]

/-- wrappers/what_sklearn.py:568-572. -/
def supportedVersions : List (SVersion × List Declaration) :=
  sortBy (fun x y => x.1.le y.1) [(⟨0, 15, 1, none⟩, table0_15_1), (⟨0, 19, 1, none⟩, table0_19_1), (⟨0, 19, 2, none⟩, table0_19_1)]

/-- wrappers/what_sklearn.py:561-587 `_declare_id_nonid_attributes`: the registry afterwards and whether a warning was logged. -/
def declareFor (installed : SVersion) (reg : SklReg) : R (SklReg × Bool) :=
  match chooseVersion installed supportedVersions with
  | none => .error .typeError
  | some (v, ds) => (declareAll reg ds).map fun reg' => (reg', v != installed)

/-- An object that got `_what_for_sklearn` as its `what` (wrappers/what_sklearn.py:597-602). -/
structure SklObj where
  cls : Str
  params : R Conf
  val : Val

/-- wrappers/what_sklearn.py:597-612 `_what_for_sklearn`. -/
def whatForSklearn (reg : SklReg) (useShort : Bool) (x : SklObj) : R What :=
  match x.params with
  | .error .attributeError =>
    match dget reg x.cls with
    | none => .error .attributeError
    | some m => obj2what true (some (if useShort then m.short else x.cls)) { nonids := m.nonids } x.val
  | .error e => .error e
  | .ok conf =>
    match dget reg x.cls with
    | some m => .ok { name := if useShort then m.short else x.cls, conf := conf, nonids := m.nonids }
    | none => .ok { name := x.cls, conf := conf }

end Whatami
