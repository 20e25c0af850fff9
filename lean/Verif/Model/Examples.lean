/-
Generated by tools/gen_examples.py: the texts returned by the ExampleConfig methods, verbatim (in the global one, the result of Sprintf).
-/
import Verif.Model.Config
import Verif.Model.Chars

namespace Shellfish.Modes
open Shellfish.Config Shellfish.Text

set_option maxRecDepth 100000

/-- cmd/id.go:34-98: the lines. -/
def idLines : List Str := [
  chars "[id.config]",
  chars "#####################",
  chars "## Required Fields ##",
  chars "#####################",
  chars "",
  chars "# Index of the snapshot to be analyzed.",
  chars "Snap = 100",
  chars "",
  chars "# List of IDs to analyze.",
  chars "IDs = 10, 11, 12, 13, 14",
  chars "",
  chars "#####################",
  chars "## Optional Fields ##",
  chars "#####################",
  chars "",
  chars "# IDType indicates what the input IDs correspond to. It can be set to the",
  chars "# following modes:",
  chars "# halo-id - The numeric IDs given in the halo catalog.",
  chars "# m200m   - The rank of the halos when sorted by M200m.",
  chars "#",
  chars "# Defaults to m200m if not set.",
  chars "# IDType = m200m",
  chars "",
  chars "# An alternative way of specifying IDs is to select start and end (inclusive)",
  chars "# ID values. If the IDs variable is not set, both of these values must be set.",
  chars "#",
  chars "# IDStart = 10",
  chars "# IDEnd = 15",
  chars "",
  chars "# Yet another alternative way to select IDs is to specify the starting and",
  chars "# ending mass range (units are M_sun/h). IDType, IDs, IDStart, and IDEnd will",
  chars "# be ignored if these variables are set.",
  chars "#",
  chars "# M200mMin = 1e12",
  chars "# M200mMax = 1e13",
  chars "",
  chars "# ExclusionStrategy determines how to exclude IDs from the given set. This is",
  chars "# useful because splashback shells are not particularly meaningful for",
  chars "# subhalos. It can be set to the following modes:",
  chars "# none      - No halos are removed",
  chars "# subhalo   - Halos flagged as subhalos in the catalog are removed (not yet",
  chars "#             implemented)",
  chars "# overlap   - Halos which have an R200m shell that overlaps with a larger halo's",
  chars "#             R200m shell are removed",
  chars "# neighbor  - Instead of removing halos, all neighboring halos within",
  chars "#             ExclusionRadiusMult*R200m are added to the list.",
  chars "#",
  chars "# ExclusionStrategy defaults to overlap if not set.",
  chars "#",
  chars "# ExclusionStrategy = overlap",
  chars "",
  chars "# ExclusionRadiusMult is a multiplier of R200m applied for the sake of",
  chars "# determining exclusions. ExclusionRadiusMult defaults to 0.8 if not set.",
  chars "#",
  chars "# ExclusionRadiusMult = 0.8",
  chars "",
  chars "# Mult is the number of times a given ID should be repeated. This is most useful",
  chars "# if you want to estimate the scatter in shell measurements for halos with a",
  chars "# given set of shell parameters.",
  chars "#",
  chars "# Mult defaults to 1 if not set.",
  chars "#",
  chars "# Mult = 1"]

/-- cmd/id.go:34-98. -/
def idExample : Str := joinWith '\n' idLines

/-- cmd/tree.go:22-33: the lines. -/
def treeLines : List Str := [
  chars "[tree.config]",
  chars "",
  chars "#####################",
  chars "## Optional Fields ##",
  chars "#####################",
  chars "",
  chars "# SelectSnaps is a list of all the snapshots which halo IDs should be",
  chars "# output at. If not set, IDs will be output at all snapshots.",
  chars "#",
  chars "# SelectSnaps = 36, 47, 64, 77, 87, 100"]

/-- cmd/tree.go:22-33. -/
def treeExample : Str := joinWith '\n' treeLines

/-- cmd/stats.go:38-105: the lines. -/
def statsLines : List Str := [
  chars "[stats.config]",
  chars "",
  chars "#####################",
  chars "## Optional Fields ##",
  chars "#####################",
  chars "",
  chars "# MonteCarloSamplings The number of Monte Carlo samplings done when calculating",
  chars "# properties of shells.",
  chars "MonteCarloSamples = 50000",
  chars "",
  chars "# ExclustionStrategy is the strategy for removing halos contained within a",
  chars "# larger halo's splashback shell.",
  chars "#",
  chars "# The supported strategies are:",
  chars "# none    - Don't remove halos.",
  chars "# contain - Only halos which have a center inside a larger halo's splashback are",
  chars "#           excluded.",
  chars "# overlap - Halos which have a splashback shell that overlaps the splashback",
  chars "#           shell of a larger halo are excluded.",
  chars "#",
  chars "# The default value is none.",
  chars "ExclusionStrategy = none",
  chars "",
  chars "# Order is the order of the Penna shell constructed around the halos. It must be",
  chars "# the same value used by the shell.config file. By default both are set to 3.",
  chars "Order = 3",
  chars "",
  chars "# SkipMass indicates whether splashback masses should be calculated. This is the",
  chars "# most expensive part of calculating the stats catalog by several order of",
  chars "# magnitude.",
  chars "#",
  chars "# ShellParticle files will also not be writen.",
  chars "# SkipMass = false",
  chars "",
  chars "# ShellParticleFile and ShellWidth allow Shellfish to output a file containing",
  chars "# the IDs of particles which are close to the edge of the halo.",
  chars "# ShellParticlesFile is a file that the IDs will be written out to, and",
  chars "# ShellWidth is how far away from the shell a particle can be (as a multiplier",
  chars "# of R200m) while still being output to the file. If ShellWidth is set to",
  chars "# a negative number, all particles within the shell will be written to the",
  chars "# file.",
  chars "#",
  chars "# The format of the file is the following:",
  chars "#",
  chars "# |- 0- ||- 1 -||- 2_0 -| ... |- 2_i -||- ... 3_0 ... -| ... |- ... 3_i ... -|",
  chars "#",
  chars "# 0) Endianness: int32",
  chars "#        The endianness of the file. 0 -> little endian, -1 -> big endian.",
  chars "# 1) HaloCount: int32",
  chars "#        The number of halos in the file.",
  chars "# 2_i) HaloInfo: struct { ID, Snap, StartByte, Particles int64 }",
  chars "#        Summarizing information for the ith halo in the file. In order, the",
  chars "#        fields represent the halo ID, the snapshot number of the halo, the",
  chars "#        index of the first byte of the particle array corresponding to this",
  chars "#        halo (i.e. the 'pos' parameter for seek() when using the flag",
  chars "#        SEEK_SET), and the number of particles that are in that halo's array.",
  chars "# 3_i) ParticleIDs: []int64",
  chars "#        The IDs of the particles near the shell of the ith halo.",
  chars "#",
  chars "# The file will be written with the byte ordering specified by the Endianness",
  chars "# variable in the global config file.",
  chars "#",
  chars "# If ShellParticleFile = \"\" or if ShellWidth = 0, no such file will be",
  chars "# created.",
  chars "# ShellParticleFile = shell-particles.dat",
  chars "# ShellWidth = 0.05"]

/-- cmd/stats.go:38-105. -/
def statsExample : Str := joinWith '\n' statsLines

/-- cmd/shell.go:39-100: the lines. -/
def shellLines : List Str := [
  chars "[shell.config]",
  chars "",
  chars "# Note: All fields in this file are optional. The value the field is set to",
  chars "# is the default value. It is unlikely that the average user will want to",
  chars "# change any of these values.",
  chars "#",
  chars "# If you find that the default parameters are behaving suboptimally in some",
  chars "# significant way on halos with more than 50,000 particles compared to some",
  chars "# other set of parameters, PLEASE submit a bug report on",
  chars "# https://github.com/phil-mansfield/shellfish/issues.",
  chars "",
  chars "# SubsampleFactor is the factor by which the points should be subsampled. This",
  chars "# parameter is chiefly useful for convergence testing.",
  chars "SubsampleFactor = 1",
  chars "",
  chars "# RadialBins is the number of radial bins used for each line of sight.",
  chars "RadialBins = 256",
  chars "",
  chars "# Spokes is the number of lines of sight per ring.",
  chars "Spokes = 256",
  chars "",
  chars "# Rings is the number of rings per halo.",
  chars "Rings = 100",
  chars "",
  chars "# RMaxMult is the maximum radius of a line of sight as a multiplier of R200m.",
  chars "RMaxMult = 3.0",
  chars "",
  chars "# RMinMult is the minimum radius of a line of sight as a multiplier of R200m.",
  chars "RMinMult = 0.3",
  chars "",
  chars "# KernelRadiusMult is the radius of the spherical kernels around every",
  chars "# particle as a multiplier of R200m.",
  chars "RKernelMult = 0.2",
  chars "",
  chars "# Eta is the tuning paramter of the point-filtering routines and determines the",
  chars "# characteristic scale used in this step. Exactly what this entails is too",
  chars "# complicated to be described here and can be found in the Shellfish paper.",
  chars "Eta = 10.0",
  chars "",
  chars "# Order indicates the order of the Penna function used to represent the",
  chars "# splashback shell.",
  chars "Order = 3",
  chars "",
  chars "# Levels is the number of recursive angular splittings that should be done when",
  chars "# filtering points.",
  chars "Levels = 3",
  chars "",
  chars "# SmoothingWindow is the width of the Savitzky-Golay smoothing window used",
  chars "# when finding the point of steepest slope along lines of sight. Must be an odd",
  chars "# number.",
  chars "SmoothingWindow = 121",
  chars "",
  chars "# Cutoff is the minimum slope allowed when finding the point of steepest slope",
  chars "# for individual lines of sight. Of all the parameters that should not be",
  chars "# changed, this is the one which should not be changed the most.",
  chars "LOSSlopeCutoff = 0.0",
  chars "",
  chars "# BackgroundRhoMult is the density assigned to points which do not intersect",
  chars "# with any kernels as a multiple of the kernel density.",
  chars "BackgroundRhoMult = 0.5"]

/-- cmd/shell.go:39-100. -/
def shellExample : Str := joinWith '\n' shellLines

/-- cmd/prof.go:45-100: the lines. -/
def profLines : List Str := [
  chars "[prof.config]",
  chars "",
  chars "#####################",
  chars "## Required Fields ##",
  chars "#####################",
  chars "",
  chars "# ProfileType determines what type of profile will be output.",
  chars "# Known profile types are:",
  chars "# density -           The traditional spherical densiy profile that we all",
  chars "#                     know and love.",
  chars "# median-density -    A density profile created by binning particles into",
  chars "#                     equal solid-angle pixels and taking the median density",
  chars "#                     across the angular bins at each radius.",
  chars "# median-error -      Calculates error on the median through bootstrap sampling.",
  chars "# contained-densiy -  A density profile which only uses particles.",
  chars "# angular-fraction -  The angular fraction at each radius which is contained",
  chars "#                     within the shell.",
  chars "# bound-density -     The density of bound matter, assuming an NFW profile.",
  chars "ProfileType = median-density",
  chars "",
  chars "# Order is the order of the Penna-Dines shell fit that Shellfish uses. This",
  chars "# variable only needs to be set if ProfileType is set to contained-density",
  chars "# or angular-fraction.",
  chars "# Order = 3",
  chars "",
  chars "# Samples is the number of Monte Carlo samples used when calculating angular",
  chars "# fraction profiles. It does not need to be set when other profiles are",
  chars "# calculated.",
  chars "# Samples = 50000",
  chars "",
  chars "# MedianPixelLevel sets the number of angular pixel used when ProfileType is",
  chars "# set to median-density. Because of Shellfish's pixelization scheme (a modified",
  chars "# version of the algorithm presented in Gringorten & Yepez, 1992), the total",
  chars "# number of pixels used is 2*(2*level - 1)^2. Quickly, that means 1 -> 2,",
  chars "# 2 -> 18, 3 -> 50, 10 -> 722 etc.",
  chars "# MedianPixelLevel = 3",
  chars "",
  chars "#####################",
  chars "## Optional Fields ##",
  chars "#####################",
  chars "",
  chars "# Percentile sets the percentile used during median-profile mode so that",
  chars "# non-median percentiles can be measured.",
  chars "# Percentile = 50",
  chars "",
  chars "# Bins is the number of logarithmic radial bins used in a profile.",
  chars "# Bins = 150",
  chars "",
  chars "# RMaxMult is the maximum radius of the profile as a function of R_200m.",
  chars "# RMaxMult = 3",
  chars "",
  chars "# RMinMult is the minimum radius of the profile as a function of R_200m.",
  chars "# RMinMult = 0.03",
  chars ""]

/-- cmd/prof.go:45-100. -/
def profExample : Str := joinWith '\n' profLines

/-- cmd/phase.go:35-55: the lines. -/
def phaseLines : List Str := [
  chars "[phase.config]",
  chars "",
  chars "# radial | total",
  chars "ProfileType = radial",
  chars "",
  chars "###################",
  chars "# Optional fields #",
  chars "###################",
  chars "",
  chars "# RBins = 100",
  chars "# VBins = 100",
  chars "",
  chars "# Multiplies R200m:",
  chars "# RMaxMult = 3.0",
  chars "# Mutliplies V200m:",
  chars "# VMaxMult = 3.0",
  chars "",
  chars "# SubtractHubble = false",
  chars ""]

/-- cmd/phase.go:35-55. -/
def phaseExample : Str := joinWith '\n' phaseLines

/-- cmd/potential.go:30-43: the lines. -/
def potentialLines : List Str := [
  chars "[potential.config]",
  chars "NCells = 64",
  chars "GridRMult = 8",
  chars "# RMinMult is the minimum radius inside which particles are used to calculate",
  chars "# the potential.",
  chars "RMinMult = 1",
  chars "# RMaxMult is the maximum radius inside which particles are used to calculate",
  chars "# the potential.",
  chars "RMaxMult = 50",
  chars "# Percentage of particles that will be used to compute the potential.",
  chars "ParticleFraction = 0.01",
  chars ""]

/-- cmd/potential.go:30-43. -/
def potentialExample : Str := joinWith '\n' potentialLines

/-- cmd/coord.go:23-30: the lines. -/
def coordLines : List Str := [
  chars "[config.coord]",
  chars "# Values are the names of the values you want to write to an output catalog.",
  chars "# The default order is the one which is needed by Shellfish. Any other order",
  chars "# would correspond to a catalog which is for your personal use only.",
  chars "Values = X, Y, Z, R200m",
  chars ""]

/-- cmd/coord.go:23-30. -/
def coordExample : Str := joinWith '\n' coordLines

/-- cmd/check.go:26-58: the lines. -/
def checkLines : List Str := [
  chars "[check.config]",
  chars "",
  chars "# All fields are optional. Unless otherwise stated, checks are very rough and",
  chars "# only done to 10%, so  report float values to at least two decimal places.",
  chars "",
  chars "# H0 = 70",
  chars "# OmegaM = 0.30",
  chars "# OmegaL = 0.70",
  chars "",
  chars "# BoxWidth is in units of Mpc/h (not your code units).",
  chars "# BoxWidth = 125",
  chars "",
  chars "# The total number of particles in the simulation box. This is checked exactly.",
  chars "# ParticleCount = 1073741824",
  chars "",
  chars "# ParticleMasses A list of all the valid DM particle masses in Msun/h (not your",
  chars "# code units).",
  chars "# ParticleMasses = 1.7e7, 1.8e8, 1.1e9",
  chars "",
  chars "# ExampleHalo is a the location and size of one halo from your catalog. It",
  chars "# is a list of six values:",
  chars "#    ExampleHalo[0] = snapshot number",
  chars "#    ExampleHalo[1 - 3] = (X, Y, Z) [Mpc/h]",
  chars "#    ExampleHalo[4] = Radius [Mpc/h]",
  chars "#    ExampleHalo[5] = Unbound mass contained within radius [Msun/h]",
  chars "# The radius used for elements 4 and 5 can correspond to any definition or",
  chars "# no definition at all, but be careful: most halo catalogs report *bound*,",
  chars "# not *unbound* masses.",
  chars "# Report position and radius to the highest accuracy that you know.",
  chars "# ExampleHalo = 100, 4.68299, 100.552, 80.9536, 2.68893, 1.446e+15",
  chars ""]

/-- cmd/check.go:26-58. -/
def checkExample : Str := joinWith '\n' checkLines

/-- cmd/cmd.go:458-647: the lines. -/
def globalLines : List Str := [
  chars "[config]",
  chars "# Target version of shellfish. This option merely allows Shellfish to notice",
  chars "# when its source and configuration files are not from the same version. It will",
  chars "# not allow previous versions to be run from earlier versions.",
  chars "Version = 1.0.4",
  chars "",
  chars "# These variables describe the formats used by the files which Shellfish reads.",
  chars "# If your simulation output uses a format not included here, you can submit a",
  chars "# request for support on https://github.com/phil-mansfield/shellfish/issues.",
  chars "#",
  chars "# The \"nil\" flag tells shellfish that you won't try to use any of the tools",
  chars "# related to this type of tile. If you set HaloType to nil, you can't use",
  chars "# id, coord, or tree, and if you set TreeType to nil, you can't use tree. Do",
  chars "# this if you're planning to read your own halo catlogs/merger trees and hand",
  chars "# input directly to shellfish's shell mode. If HaloType is nil, you don't need",
  chars "# to fill out any of the Halo* variables in this config file and if TreeType",
  chars "# is nil, you don't need to fill out any of the Tree* variables.",
  chars "#",
  chars "# Supported SnapshotTypes: LGadget-2, gotetra, Gadget-2 (experimental),",
  chars "# ARTIO (experimental), Bolshoi (experimental), BolshoiP (experiemntal)",
  chars "# Supported HaloTypes: Text, nil",
  chars "# Supported TreeTypes: consistent-trees, nil",
  chars "SnapshotType = LGadget-2",
  chars "HaloType = Text",
  chars "TreeType = consistent-trees",
  chars "",
  chars "# HaloValueNames and HaloValueColumns tell Shellfish about the structure of your",
  chars "# halo catalogs. It needs to be able to read three pieces of information: the",
  chars "# halos IDs, the positions and the masses. HaloValueNames should be an ordered",
  chars "# list of columns (the set below is the minimum required) and the 0-indexed",
  chars "# columns of your halo catalog that they appear in.",
  chars "HaloValueNames = ID, X, Y, Z, M200m",
  chars "HaloValueColumns = 0, 2, 3, 4, 20",
  chars "# HaloValueComments can be used to include notes about, e.g. units in output",
  chars "# catalogs. These are not analyzed by Shellfish in any way, but will be",
  chars "# propagated to output catalogs when relevant.",
  chars "HaloValueComments = \"int\", \"cMpc/h\", \"cMpc/h\", \"cMpc/h\", \"Msun/h\"",
  chars "",
  chars "# HaloPositionUnits are the units which your halo catalog reports positions in.",
  chars "# Currently supported values are \"cMpc/h\" and \"ckpc/h\" (the \"c\" stands for",
  chars "# \"comoving\") and \"pMpc/h\" and \"pkpc/h\" (the \"p\" stands for \"physical\"). The",
  chars "# same units without the \"/h\" are also supported.",
  chars "HaloPositionUnits = cMpc/h",
  chars "# HaloRadiusUnits are the units which your halo catalog reports radii in.",
  chars "# Currently supported values are \"cMpc/h\" and \"ckpc/h\" (the \"c\" stands for",
  chars "# \"comoving\").",
  chars "HaloRadiusUnits = ckpc/h",
  chars "# HaloMassUnits are the units which your halo catalog reports masses in.",
  chars "# Currently only \"Msun/h\" is supported.",
  chars "HaloMassUnits = Msun/h",
  chars "",
  chars "# These next couple of variables are neccessary evils due to the fact that there",
  chars "# are a wide range of directory structures used in different simulations. They",
  chars "# will be sufficient to specify the location of snapshots in the vast majority",
  chars "# of cases. I give an in-depth description of how to use them in the file",
  chars "# doc/directory_config.md.",
  chars "SnapshotFormat = path/to/snapshots/snapdir_%03d/snapshot_%03d.%d",
  chars "# Valid values are \"Snapshot\", \"ScaleFactor\", \"Block\", \"Block0\", \"Block1\", etc.",
  chars "# BlockN will reference the Nth element of the BlockMins and Block Maxes",
  chars "# variables.",
  chars "SnapshotFormatMeanings = Snapshot, Snapshot, Block",
  chars "BlockMins = 0",
  chars "BlockMaxes = 511",
  chars "SnapMin = 0",
  chars "SnapMax = 100",
  chars "",
  chars "# ScaleFactorFile should only be set if one of the elements of",
  chars "# SnapshotFormatMeanings is 'ScaleFactor'. This should point to a file which",
  chars "# contains the scale factors of your files. A file like this can usually be",
  chars "# generated in a few lines of Python: look in doc/scale_factor_ex.py",
  chars "# for an example.",
  chars "# ScaleFactorFile = path/to/file.txt",
  chars "",
  chars "# Directory containing halo catalogs. It is assumed that when the catalog",
  chars "# catalog files in this directory are sorted in alphabetical order (really: in",
  chars "# lexicographical order), they will also be sorted temporally. It's also assumed",
  chars "# that there are no missing snapshots in the middle of your simulation (e.g.",
  chars "# if snapshot #83 and #85 exist, but snapshot #84 got corrupted and was deleted,",
  chars "# that would be bad, but if you don't have catalogs for the firt ten snapshots",
  chars "# your simulation, that would be fine.)",
  chars "#",
  chars "# If either of these isn't true, you'll still be able to use the shell finding",
  chars "# and analyzing parts of Shellfish, but won't be able to use its catalog reading",
  chars "# tools.",
  chars "HaloDir = path/to/halos/dir/",
  chars "",
  chars "# Directory containing merger tree.",
  chars "TreeDir = path/to/merger/tree/dir/",
  chars "",
  chars "# A directory you create the first time you run Shellfish for a particular",
  chars "# simulation. Shellfish will cache certain partial results in this directoy.",
  chars "# Every time a value is changed in this file, you must change the location of",
  chars "# this directory.",
  chars "# (\"memo\" is a reference to the term \"memoization,\" which is just  a fancy",
  chars "# word for caching.)",
  chars "MemoDir = path/to/memo/dir/",
  chars "",
  chars "# Endianness of any external binary data files read by Shellfish. It should be",
  chars "# set to either SystemOrder, LittleEndian, BigEndian. This variable defaults to",
  chars "# SystemOrder.",
  chars "#",
  chars "# (Any binaries data files _written_ by Shellfish will ignore this variable and",
  chars "# will be written in little endian order. This and a few other details allows",
  chars "# binary files written by Shellfish on one machine to be read by it on any other",
  chars "# machine.)",
  chars "Endianness = SystemOrder",
  chars "",
  chars "# Threads is the number of threads that should be run simultaneously. If Threads",
  chars "# is set to a non-positive value (as it is by default), it will automatically",
  chars "# be set equal to the number of available cores on the current node. All threads",
  chars "# will be balanced across available cores. Setting this to a value larger than",
  chars "# the number of cores on the node might result in slightly suboptimal",
  chars "# performance.",
  chars "Threads = -1",
  chars "",
  chars "# The logging mode to be used. There are three different logging modes:",
  chars "# nil - no logging is performed.",
  chars "# performance - runtime and memory consumption logging are written to stderr.",
  chars "# debugging - debugging information is written to stderr",
  chars "Logging = nil",
  chars "",
  chars "###############################",
  chars "## Format-specific variables ##",
  chars "###############################",
  chars "# If SnapshotType is set to Gadget-2, LGadget-2, or nil, extra information",
  chars "# will need to be provided to read your files.",
  chars "",
  chars "###############################",
  chars "## Gadget-specific variables ##",
  chars "###############################",
  chars "",
  chars "# GadgetDMTypeIndices indicates which particle types correspond to dark matter",
  chars "# particles. For a typical uniform mass DM-only simulation, this will be 1. For",
  chars "# simulations with particles of multiple masses, more than one index may be",
  chars "# used. This only needs to be set if SnapshßotType = Gadget-2.",
  chars "# GadgetDMTypeIndices = 1",
  chars "",
  chars "# GadgetSingleMassIndices indicates which particle types don't have entries in",
  chars "# the MASS/Masses block and instead use the the Massarr/MassTable entry in the",
  chars "# header. Include non-DM particle types. This only needs to be set if",
  chars "# SnapshotType = Gadget-2.",
  chars "# GadgetSingleMassIndices = 0, 1, 2, 3, 4, 5",
  chars "",
  chars "# GadgetPositionUnits indicates how positions are stored within your Gadget",
  chars "# snapshot. Set this variable so the following equation is true:",
  chars "# (1 Mpc/h) * GadgetPositionUnits = (Your position units).",
  chars "# (i.e. if your position units are smaller than 1 Mpc/h, this variable should",
  chars "# be less than one). This variable only needs to be set if",
  chars "# SnapshotType = Gadget-2 and your units are not 1 Mpc/h.",
  chars "# GadgetPositionUnits = 1.0",
  chars "",
  chars "# GadgetMassUnits indicates how positions are stored within your Gadget",
  chars "# snapshot. Set this variable so the following equation is true:",
  chars "# (1 Msun/h) * GadgetMassUnits = (Your mass units).",
  chars "# (i.e. if your mass units are smaller than 1 Msun/h, this variable should be",
  chars "# less than one). This variable only needs to be set if SnapshotType = Gadget-",
  chars "# and your units are not 1 Msun/h.",
  chars "# GadgetMassUnits = 1.0",
  chars "",
  chars "################################",
  chars "## LGadget-specific variables ##",
  chars "################################",
  chars "",
  chars "# LGadgetNpartNum is an optional variable which should only be set when using",
  chars "# LGadget files. If your LGadget files use two elements of Npart and Nall to",
  chars "# represent the number of dark matter particles in your simulation, set this",
  chars "# variable to 2. If every element corresponds to a different particle species,",
  chars "# set this variable to 1. LGadgetNpartNum defaults to the most common value, 2.",
  chars "#",
  chars "# If you don't know what your LGadget file does, leave this alone: Shellfish will",
  chars "# fail and tell you to change this variable.",
  chars "# LGadgetNpartNum = 2",
  chars "",
  chars "##########################################",
  chars "## nil (SnapshotType)-specifc variables ##",
  chars "##########################################",
  chars "# You will need to provide basic cosmological information which is normally",
  chars "# contained in snapshot headers. The example values are for the Bolshoi halo",
  chars "# catalogs.",
  chars "",
  chars "# NilSnapOmegaM = 0.27",
  chars "# NilSnapOmegaL = 0.73",
  chars "# NilSnapH100 = 0.7",
  chars "# In ascending order:",
  chars "# NilSnapScaleFactors = [0.06635, 0.07835, 0.09635, 0.10235, 0.10835, 0.11435, 0.12035, 0.13235, 0.13835, 0.14435, 0.15035, 0.15635, 0.16235, 0.16835, 0.17435, 0.18035, 0.18635, 0.19235, 0.19835, 0.20235, 0.20435, 0.21035, 0.21635, 0.22235, 0.22835, 0.23435, 0.24635, 0.25235, 0.25835, 0.26435, 0.27035, 0.27635, 0.28235, 0.28835, 0.29435, 0.30635, 0.31235, 0.31835, 0.32435, 0.33035, 0.33635, 0.34235, 0.34835, 0.35435, 0.36035, 0.36635, 0.37235, 0.37835, 0.38435, 0.39035, 0.39635, 0.40235, 0.40835, 0.41435, 0.42035, 0.42635, 0.43235, 0.43835, 0.44435, 0.45035, 0.45635, 0.46235, 0.46835, 0.47435, 0.48035, 0.48635, 0.49835, 0.50435, 0.51035, 0.51635, 0.52235, 0.52835, 0.53235, 0.53835, 0.54435, 0.55035, 0.55635, 0.56235, 0.56835, 0.57435, 0.58035, 0.58635, 0.59235, 0.59835, 0.60435, 0.61035, 0.61635, 0.62235, 0.62835, 0.63435, 0.64035, 0.64635, 0.65235, 0.65835, 0.66435, 0.67035, 0.67635, 0.68235, 0.68835, 0.69435, 0.70035, 0.70635, 0.71235, 0.71835, 0.72435, 0.73035, 0.73635, 0.74235, 0.74835, 0.75435, 0.76035, 0.76635, 0.77235, 0.77835, 0.78435, 0.79035, 0.79635, 0.80235, 0.80835, 0.81135, 0.81435, 0.81735, 0.82035, 0.82335, 0.82635, 0.82935, 0.83235, 0.83535, 0.83835, 0.84135, 0.84435, 0.84735, 0.85035, 0.85335, 0.85635, 0.85935, 0.86235, 0.86535, 0.86835, 0.87135, 0.87435, 0.87735, 0.88035, 0.88335, 0.88635, 0.88935, 0.89235, 0.89535, 0.89835, 0.90135, 0.90435, 0.90735, 0.91035, 0.91335, 0.91635, 0.91935, 0.92235, 0.92535, 0.92835, 0.93135, 0.93435, 0.93735, 0.94335, 0.94635, 0.94935, 0.95235, 0.95835, 0.96135, 0.96435, 0.96735, 0.97035, 0.97335, 0.97635, 0.97935, 0.98235, 0.98535, 0.98835, 0.99135, 0.99435, 0.99735, 1.00035]",
  chars "# Measured in Mpc/h:",
  chars "# NilSnapTotalWidth = 250",
  chars ""]

/-- cmd/cmd.go:458-647. -/
def globalExample : Str := joinWith '\n' globalLines

end Shellfish.Modes
