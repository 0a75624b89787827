import Verif.Sklearn
import Verif.ClassGraph

/-
Model of wrappers/what_sklearn.py: `whatamize_sklearn` as a whole, with what it leaves behind when it raises.

Simplified: classes are numbers with a method resolution order, as in ClassGraph; what the imports give or raise is given.  Every class is
imported under its own name.  Logging is counted.
-/
namespace Whatami

/-- A statement `from module import names` (wrappers/what_sklearn.py:106-553). -/
abbrev SklImport := Str × List Str

/-- wrappers/what_sklearn.py:105-210: the imports of the function and how many calls of `_a` follow them. -/
def imports0_15_1 : List (List SklImport × Nat) := [
  ([(c!"sklearn.cluster", [c!"KMeans", c!"DBSCAN", c!"MeanShift", c!"SpectralClustering", c!"Birch"]),
    (c!"sklearn.cluster.affinity_propagation_", [c!"AffinityPropagation"]),
    (c!"sklearn.cluster.bicluster", [c!"SpectralCoclustering", c!"SpectralBiclustering"]),
    (c!"sklearn.cluster.hierarchical", [c!"AgglomerativeClustering", c!"FeatureAgglomeration"]),
    (c!"sklearn.cluster.k_means_", [c!"MiniBatchKMeans"]),
    (c!"sklearn.cross_decomposition", [c!"PLSRegression", c!"PLSCanonical", c!"CCA", c!"PLSSVD"]),
    (c!"sklearn.ensemble", [c!"RandomForestClassifier", c!"RandomForestRegressor", c!"ExtraTreesClassifier", c!"ExtraTreesRegressor"]),
    (c!"sklearn.ensemble.gradient_boosting", [c!"GradientBoostingClassifier", c!"GradientBoostingRegressor"]),
    (c!"sklearn.gaussian_process", [c!"GaussianProcess"]),
    (c!"sklearn.linear_model", [c!"Ridge", c!"Lasso", c!"ElasticNet", c!"Lars", c!"OrthogonalMatchingPursuit", c!"BayesianRidge", c!"ARDRegression", c!"LogisticRegression", c!"SGDClassifier", c!"SGDRegressor", c!"Perceptron", c!"LassoLars", c!"LinearRegression"]),
    (c!"sklearn.naive_bayes", [c!"GaussianNB", c!"MultinomialNB", c!"BernoulliNB"]),
    (c!"sklearn.neighbors", [c!"KNeighborsClassifier", c!"RadiusNeighborsClassifier", c!"KNeighborsRegressor", c!"RadiusNeighborsRegressor", c!"NearestCentroid"]),
    (c!"sklearn.pipeline", [c!"FeatureUnion"]),
    (c!"sklearn.preprocessing", [c!"Normalizer"]),
    (c!"sklearn.preprocessing.data", [c!"MinMaxScaler"]),
    (c!"sklearn.svm", [c!"SVC", c!"NuSVC", c!"LinearSVC", c!"SVR", c!"NuSVR"]),
    (c!"sklearn.tree", [c!"DecisionTreeClassifier", c!"DecisionTreeRegressor"])], 53)]

/-- wrappers/what_sklearn.py:213-558: the imports of the function and how many calls of `_a` follow them. -/
def imports0_19_1 : List (List SklImport × Nat) := [
  ([(c!"sklearn.calibration", [c!"CalibratedClassifierCV"])], 1),
  ([(c!"sklearn.cluster", [c!"AffinityPropagation", c!"AgglomerativeClustering", c!"Birch", c!"DBSCAN", c!"FeatureAgglomeration", c!"KMeans", c!"MiniBatchKMeans", c!"MeanShift", c!"SpectralClustering", c!"SpectralCoclustering", c!"SpectralBiclustering"])], 11),
  ([(c!"sklearn.covariance", [c!"EmpiricalCovariance", c!"EllipticEnvelope", c!"GraphLasso", c!"GraphLassoCV", c!"LedoitWolf", c!"MinCovDet", c!"OAS", c!"ShrunkCovariance"])], 8),
  ([(c!"sklearn.cross_decomposition", [c!"PLSRegression", c!"PLSCanonical", c!"CCA", c!"PLSSVD"])], 4),
  ([(c!"sklearn.decomposition", [c!"DictionaryLearning", c!"FactorAnalysis", c!"FastICA", c!"IncrementalPCA", c!"KernelPCA", c!"LatentDirichletAllocation", c!"MiniBatchDictionaryLearning", c!"MiniBatchSparsePCA", c!"NMF", c!"PCA", c!"SparsePCA", c!"SparseCoder", c!"TruncatedSVD"])], 13),
  ([(c!"sklearn.discriminant_analysis", [c!"LinearDiscriminantAnalysis", c!"QuadraticDiscriminantAnalysis"])], 2),
  ([(c!"sklearn.dummy", [c!"DummyClassifier", c!"DummyRegressor"])], 2),
  ([(c!"sklearn.ensemble", [c!"AdaBoostClassifier", c!"AdaBoostRegressor", c!"BaggingClassifier", c!"BaggingRegressor", c!"ExtraTreesClassifier", c!"ExtraTreesRegressor", c!"GradientBoostingClassifier", c!"GradientBoostingRegressor", c!"IsolationForest", c!"RandomForestClassifier", c!"RandomForestRegressor", c!"RandomTreesEmbedding", c!"VotingClassifier"])], 13),
  ([(c!"sklearn.feature_extraction", [c!"DictVectorizer", c!"FeatureHasher"]),
    (c!"sklearn.feature_extraction.image", [c!"PatchExtractor"]),
    (c!"sklearn.feature_extraction.text", [c!"CountVectorizer", c!"HashingVectorizer", c!"TfidfTransformer", c!"TfidfVectorizer"])], 7),
  ([(c!"sklearn.feature_selection", [c!"GenericUnivariateSelect", c!"SelectPercentile", c!"SelectKBest", c!"SelectFpr", c!"SelectFdr", c!"SelectFromModel", c!"SelectFwe", c!"RFE", c!"RFECV", c!"VarianceThreshold"])], 10),
  ([(c!"sklearn.gaussian_process", [c!"GaussianProcessClassifier", c!"GaussianProcessRegressor"]),
    (c!"sklearn.gaussian_process.kernels", [c!"CompoundKernel", c!"ConstantKernel", c!"DotProduct", c!"ExpSineSquared", c!"Exponentiation", c!"Matern", c!"PairwiseKernel", c!"Product", c!"RBF", c!"RationalQuadratic", c!"Sum", c!"WhiteKernel"])], 14),
  ([(c!"sklearn.isotonic", [c!"IsotonicRegression"])], 1),
  ([(c!"sklearn.kernel_approximation", [c!"AdditiveChi2Sampler", c!"Nystroem", c!"RBFSampler", c!"SkewedChi2Sampler"])], 4),
  ([(c!"sklearn.kernel_ridge", [c!"KernelRidge"])], 1),
  ([(c!"sklearn.linear_model", [c!"ARDRegression", c!"BayesianRidge", c!"ElasticNet", c!"ElasticNetCV", c!"HuberRegressor", c!"Lars", c!"LarsCV", c!"Lasso", c!"LassoCV", c!"LassoLars", c!"LassoLarsCV", c!"LassoLarsIC", c!"LinearRegression", c!"LogisticRegression", c!"LogisticRegressionCV", c!"MultiTaskLasso", c!"MultiTaskElasticNet", c!"MultiTaskElasticNetCV", c!"MultiTaskLassoCV", c!"OrthogonalMatchingPursuit", c!"OrthogonalMatchingPursuitCV", c!"PassiveAggressiveClassifier", c!"PassiveAggressiveRegressor", c!"Perceptron", c!"RANSACRegressor", c!"Ridge", c!"RidgeClassifier", c!"RidgeClassifierCV", c!"RidgeCV", c!"SGDClassifier", c!"SGDRegressor", c!"TheilSenRegressor"])], 32),
  ([(c!"sklearn.manifold", [c!"Isomap", c!"LocallyLinearEmbedding", c!"MDS", c!"SpectralEmbedding", c!"TSNE"])], 5),
  ([(c!"sklearn.mixture", [c!"BayesianGaussianMixture", c!"GaussianMixture"])], 2),
  ([(c!"sklearn.model_selection", [c!"GroupKFold", c!"GroupShuffleSplit", c!"KFold", c!"LeaveOneGroupOut", c!"LeavePGroupsOut", c!"LeaveOneOut", c!"LeavePOut", c!"PredefinedSplit", c!"RepeatedStratifiedKFold", c!"ShuffleSplit", c!"StratifiedKFold", c!"StratifiedShuffleSplit", c!"TimeSeriesSplit", c!"GridSearchCV", c!"RandomizedSearchCV"])], 15),
  ([(c!"sklearn.multiclass", [c!"OneVsRestClassifier", c!"OneVsOneClassifier", c!"OutputCodeClassifier"])], 3),
  ([(c!"sklearn.multioutput", [c!"ClassifierChain", c!"MultiOutputClassifier", c!"MultiOutputRegressor"])], 3),
  ([(c!"sklearn.naive_bayes", [c!"BernoulliNB", c!"GaussianNB", c!"MultinomialNB"])], 3),
  ([(c!"sklearn.neighbors", [c!"KernelDensity", c!"KNeighborsClassifier", c!"RadiusNeighborsClassifier", c!"KNeighborsRegressor", c!"RadiusNeighborsRegressor", c!"LocalOutlierFactor", c!"NearestCentroid", c!"NearestNeighbors"])], 8),
  ([(c!"sklearn.neural_network", [c!"BernoulliRBM", c!"MLPClassifier", c!"MLPRegressor"])], 3),
  ([(c!"sklearn.pipeline", [c!"FeatureUnion", c!"Pipeline"])], 2),
  ([(c!"sklearn.preprocessing", [c!"Binarizer", c!"FunctionTransformer", c!"Imputer", c!"KernelCenterer", c!"LabelBinarizer", c!"LabelEncoder", c!"MultiLabelBinarizer", c!"MaxAbsScaler", c!"MinMaxScaler", c!"Normalizer", c!"OneHotEncoder", c!"PolynomialFeatures", c!"QuantileTransformer", c!"RobustScaler", c!"StandardScaler"])], 15),
  ([(c!"sklearn.random_projection", [c!"GaussianRandomProjection", c!"SparseRandomProjection"])], 2),
  ([(c!"sklearn.semi_supervised", [c!"LabelPropagation", c!"LabelSpreading"])], 2),
  ([(c!"sklearn.svm", [c!"LinearSVC", c!"LinearSVR", c!"NuSVC", c!"NuSVR", c!"OneClassSVM", c!"SVC", c!"SVR"])], 7),
  ([(c!"sklearn.tree", [c!"DecisionTreeClassifier", c!"DecisionTreeRegressor", c!"ExtraTreeClassifier", c!"ExtraTreeRegressor"])], 4)]

/-- The imports with the declarations that follow them (wrappers/what_sklearn.py:105-558). -/
def sections : List (List SklImport × Nat) → List Declaration → List (List SklImport × List Declaration)
  | [], _ => []
  | (is, n) :: r, ds => (is, ds.take n) :: sections r (ds.drop n)

/-- wrappers/what_sklearn.py:568-572: the supported versions, with the imports of their declarations. -/
def supportedScripts : List (SVersion × List (List SklImport × List Declaration)) :=
  sortBy (fun x y => x.1.le y.1) [(⟨0, 15, 1, none⟩, sections imports0_15_1 table0_15_1), (⟨0, 19, 1, none⟩, sections imports0_19_1 table0_19_1),
    (⟨0, 19, 2, none⟩, sections imports0_19_1 table0_19_1)]

/-- The installed sklearn and the classes there are, as far as wrappers/what_sklearn.py:561-665 look at them. -/
structure SklWorld where
  installed : SVersion
  /-- what the import raises, if it does -/
  importFails : SklImport → Option Err
  mro : Nat → List Nat
  /-- `BaseEstimator` -/
  base : Nat
  /-- what the names in `_WHATAMIZED_BASES` (wrappers/what_sklearn.py:66-70) resolve to -/
  bases : List (R Nat)

/-- The module's registry, the `what` attributes of classes and the number of warnings logged (wrappers/what_sklearn.py:64, 580-583; whatutils.py:50). -/
structure SklState (F : Type) where
  reg : SklReg
  own : WhatAttrs F
  warned : Nat

/-- One of the functions `_declare…` (wrappers/what_sklearn.py:105-558), imports and declarations alternating: the registry afterwards and the exception, if any. -/
def runSections (importFails : SklImport → Option Err) : SklReg → List (List SklImport × List Declaration) → SklReg × Option Err
  | reg, [] => (reg, none)
  | reg, (is, ds) :: r =>
    match is.findSome? importFails with
    | some e => (reg, some e)
    | none =>
      match declareAll reg ds with
      | .error e => (reg, some e)
      | .ok reg' => runSections importFails reg' r

/-- wrappers/what_sklearn.py:561-587 `_declare_id_nonid_attributes`; the warning comes before the declarations. -/
def declareSkl {F : Type} (W : SklWorld) (s : SklState F) : SklState F × Option Err :=
  match chooseVersion W.installed supportedScripts with
  | none => (s, some .typeError)
  | some (v, script) =>
    let s1 : SklState F := { s with warned := if v != W.installed then s.warned + 1 else s.warned }
    let (reg', e) := runSections W.importFails s1.reg script
    ({ s1 with reg := reg' }, e)

/-- wrappers/what_sklearn.py:630-631, keeping what was done before an exception. -/
def whatamizeBases {F : Type} (mro : Nat → List Nat) (f : F) : WhatAttrs F → List (R Nat) → WhatAttrs F × Option Err
  | own, [] => (own, none)
  | own, c :: cs =>
    match whatamizeObject mro own c f false false with
    | .error e => (own, some e)
    | .ok own' => whatamizeBases mro f own' cs

/-- wrappers/what_sklearn.py:615-635 `whatamize_sklearn(check=False)`: the state afterwards and the exception, if any. -/
def whatamizeSklearn {F : Type} (W : SklWorld) (f : F) (s : SklState F) : SklState F × Option Err :=
  match declareSkl W s with
  | (s1, some e) => (s1, some e)
  | (s1, none) =>
    match whatamizeObject W.mro s1.own (.ok W.base) f true false with
    | .error e => (s1, some e)
    | .ok own1 =>
      let (own2, e) := whatamizeBases W.mro f own1 W.bases
      ({ s1 with own := own2 }, e)

/-- What wrappers/what_sklearn.py:638-665 look at besides: the direct bases of all classes, the depth of the stack, the four classes imported
first, which classes are abstract, and the objects made by calling them. -/
structure SklProbe where
  graph : Bases
  depth : Nat
  probes : List (R Nat)
  isAbstract : Nat → Bool
  make : Nat → R SklObj

/-- How the check ends. -/
inductive CheckEnd where
  | passed
  | assertion
  | raised (e : Err)
deriving DecidableEq, Repr

/-- wrappers/what_sklearn.py:647-654. -/
def checkProbes (W : SklWorld) : List (R Nat) → CheckEnd
  | [] => .passed
  | .error e :: _ => .raised e
  | .ok k :: r => if (W.mro k).contains W.base then checkProbes W r else .assertion

/-- wrappers/what_sklearn.py:658-665: one class; `call` tells whether `what()` returns a `What`. -/
def checkClass {F : Type} (W : SklWorld) (P : SklProbe) (call : F → SklReg → SklObj → R Bool) (s : SklState F) (k : Nat) : CheckEnd :=
  if P.isAbstract k then .passed
  else match P.make k with
    | .error .typeError => .passed
    | .error e => .raised e
    | .ok x =>
      match lookupWhat W.mro s.own k with
      | none => .assertion
      | some f =>
        match call f s.reg x with
        | .error .typeError => .passed
        | .error e => .raised e
        | .ok b => if b then .passed else .assertion

/-- wrappers/what_sklearn.py:658: the loop. -/
def checkClasses {F : Type} (W : SklWorld) (P : SklProbe) (call : F → SklReg → SklObj → R Bool) (s : SklState F) : List Nat → CheckEnd
  | [] => .passed
  | k :: ks =>
    match checkClass W P call s k with
    | .passed => checkClasses W P call s ks
    | r => r

/-- wrappers/what_sklearn.py:638-666 `_check_all_monkeypatched`. -/
def checkAllPatched {F : Type} (W : SklWorld) (P : SklProbe) (f : F) (call : F → SklReg → SklObj → R Bool) (s : SklState F) : SklState F × CheckEnd :=
  match whatamizeSklearn W f s with
  | (s1, some e) => (s1, .raised e)
  | (s1, none) =>
    match checkProbes W P.probes with
    | .passed =>
      match allSubs P.graph P.depth W.base with
      | .error e => (s1, .raised e)
      | .ok ks => (s1, checkClasses W P call s1 ks)
    | r => (s1, r)

/-- wrappers/what_sklearn.py:615-635 `whatamize_sklearn(check=True)`. -/
def whatamizeChecked {F : Type} (W : SklWorld) (P : SklProbe) (f : F) (call : F → SklReg → SklObj → R Bool) (s : SklState F) : SklState F × CheckEnd :=
  match whatamizeSklearn W f s with
  | (s1, some e) => (s1, .raised e)
  | (s1, none) => checkAllPatched W P f call s1

end Whatami
