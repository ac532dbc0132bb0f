import Verif.Model.Parameters

/-! # The parameter files shipped with the crate

Generated by tools/shipped.py from /repo/parameters: every record of every file with pure-component parameters,
the homosegmented group parameters, and the groups of every substance.  Numbers are the decimals in the files. -/

namespace PcSaft.Shipped

/-- a record as it is read from a file: fields that are not given are absent -/
def record (m sigma epsilon_k : ℚ) (mu q kappa_ab epsilon_k_ab na nb : Option ℚ := none)
    (viscosity : Option (Fin 4 → ℚ) := none) : PcSaftRecord ℚ where
  m := m
  sigma := sigma
  epsilon_k := epsilon_k
  mu := mu
  q := q
  kappa_ab := kappa_ab
  epsilon_k_ab := epsilon_k_ab
  na := na
  nb := nb
  viscosity := viscosity
  diffusion := none
  thermal_conductivity := none

/-- a pure-component entry of a file (the identifier without CAS number, SMILES and so on) -/
def substance (name : String) (molarweight : ℚ) (r : PcSaftRecord ℚ) : PureRecord ℚ where
  identifier := ⟨some name, ""⟩
  molarweight := molarweight
  model_record := r
  ideal_gas_record := none

/-- /repo/parameters/gross2001.json -/
def gross2001 : List (PureRecord ℚ) := [
  substance "methane" 16.043 (record 1.0 3.7039 150.03),
  substance "ethane" 30.07 (record 1.6069 3.5206 191.42),
  substance "propane" 44.096 (record 2.002 3.6184 208.11),
  substance "butane" 58.123 (record 2.3316 3.7086 222.88),
  substance "pentane" 72.146 (record 2.6896 3.7729 231.2),
  substance "hexane" 86.177 (record 3.0576 3.7983 236.77),
  substance "heptane" 100.203 (record 3.4831 3.8049 238.4),
  substance "octane" 114.231 (record 3.8176 3.8373 242.78),
  substance "nonane" 128.25 (record 4.2079 3.8448 244.51),
  substance "decane" 142.285 (record 4.6627 3.8384 243.87),
  substance "undecane" 156.312 (record 4.9082 3.8893 248.82),
  substance "dodecane" 170.338 (record 5.306 3.8959 249.21),
  substance "tridecane" 184.365 (record 5.6877 3.9143 249.78),
  substance "tetradecane" 198.392 (record 5.9002 3.9396 254.21),
  substance "pentadecane" 212.419 (record 6.2855 3.9531 254.14),
  substance "hexadecane" 226.446 (record 6.6485 3.9552 254.7),
  substance "heptadecane" 240.473 (record 6.9809 3.9675 255.65),
  substance "octadecane" 254.5 (record 7.3271 3.9668 256.2),
  substance "nonadecane" 268.527 (record 7.7175 3.9721 256.0),
  substance "eicosane" 282.553 (record 7.9849 3.9869 257.75),
  substance "isobutane" 58.123 (record 2.2616 3.7574 216.53),
  substance "isopentane" 72.15 (record 2.562 3.8296 230.75),
  substance "neopentane" 72.15 (record 2.3543 3.955 225.69),
  substance "2-methylpentane" 86.177 (record 2.9317 3.8535 235.58),
  substance "2,2-dimethylbutane" 86.177 (record 2.6008 4.0042 243.51),
  substance "2,3-dimethylbutane" 86.177 (record 2.6853 3.9545 246.07),
  substance "3-methylpentane" 86.177 (record 2.8852 3.8605 240.48),
  substance "2-methylhexane" 100.204 (record 3.3478 3.8612 237.42),
  substance "cyclopentane" 70.13 (record 2.3655 3.7114 265.83),
  substance "cyclohexane" 84.147 (record 2.5303 3.8499 278.11),
  substance "methylcyclopentane" 84.156 (record 2.613 3.8253 265.12),
  substance "methylcyclohexane" 98.182 (record 2.6637 3.9993 282.33),
  substance "ethylcyclopentane" 98.182 (record 2.9062 3.8873 270.5),
  substance "ethylcyclohexane" 112.215 (record 2.8256 4.1039 294.04),
  substance "ethylene" 28.05 (record 1.593 3.445 176.47),
  substance "propylene" 42.081 (record 1.9597 3.5356 207.19),
  substance "1-butene" 56.107 (record 2.2864 3.6431 222.0),
  substance "1-pentene" 70.134 (record 2.6006 3.7399 231.99),
  substance "1-hexene" 84.616 (record 2.9853 3.7753 236.81),
  substance "1-octene" 112.215 (record 3.7424 3.8133 243.02),
  substance "cyclopentene" 68.114 (record 2.2934 3.6668 267.76),
  substance "benzene" 78.114 (record 2.4653 3.6478 287.35),
  substance "toluene" 92.141 (record 2.8149 3.7169 285.69),
  substance "ethylbenzene" 106.167 (record 3.0799 3.7974 287.35),
  substance "m-xylene" 106.167 (record 3.1861 3.7563 283.98),
  substance "o-xylene" 106.167 (record 3.1362 3.76 291.05),
  substance "p-xylene" 106.167 (record 3.1723 3.7781 283.77),
  substance "n-propylbenzene" 120.194 (record 3.3438 3.8438 288.13),
  substance "tetralin" 132.205 (record 3.3131 3.875 325.07),
  substance "n-butylbenzene" 134.221 (record 3.7662 3.8727 283.07),
  substance "biphenyl" 154.211 (record 3.8877 3.8151 327.42),
  substance "carbon monoxide" 28.01 (record 1.3097 3.2507 92.15),
  substance "nitrogen" 28.01 (record 1.2053 3.313 90.96),
  substance "argon" 39.948 (record 0.9285 3.4784 122.23),
  substance "carbon dioxide" 44.01 (record 2.0729 2.7852 169.21),
  substance "sulfur dioxide" 64.065 (record 2.8611 2.6826 205.35),
  substance "chlorine" 70.905 (record 1.5514 3.3672 265.67),
  substance "carbon disulfide" 76.143 (record 1.6919 3.6172 334.82),
  substance "methyl chloride" 50.488 (record 1.9297 3.2293 240.56),
  substance "chloroethane" 64.514 (record 2.2638 3.416 245.43),
  substance "2-chloropropane" 78.541 (record 2.4151 3.6184 251.47),
  substance "1-chlorobutane" 92.568 (record 2.8585 3.6424 258.66),
  substance "chlorobenzene" 112.558 (record 2.6485 3.7533 315.04),
  substance "bromobenzene" 157.01 (record 2.6456 3.836 334.37),
  substance "dimethyl ether" 46.069 (record 2.3071 3.2528 211.06),
  substance "diethyl ether" 74.123 (record 2.9686 3.5147 220.09),
  substance "methyl n-propyl ether" 74.123 (record 3.0087 3.4569 222.73),
  substance "methyl methanoate" 60.053 (record 2.6784 3.0875 242.63),
  substance "ethyl methanoate" 74.079 (record 2.8876 3.3109 246.47),
  substance "propyl methanoate" 88.106 (record 3.2088 3.4168 246.46),
  substance "ethyl ethanoate" 88.106 (record 3.5375 3.3079 230.8),
  substance "propyl ethanoate" 102.133 (record 3.7861 3.4227 235.76),
  substance "n-butyl ethanoate" 116.16 (record 3.9808 3.5427 242.52),
  substance "isopropyl ethanoate" 102.133 (record 3.6084 3.4818 231.91),
  substance "methyl propanoate" 88.106 (record 3.4793 3.3142 234.96),
  substance "ethyl propanoate" 102.133 (record 3.8371 3.4031 232.78),
  substance "propyl propanoate" 116.16 (record 4.1155 3.4875 235.6),
  substance "methyl butanoate" 102.133 (record 3.6758 3.4437 240.62)]

/-- /repo/parameters/gross2002.json -/
def gross2002 : List (PureRecord ℚ) := [
  substance "methanol" 32.042 (record 1.5255 3.23 188.9 (kappa_ab := some 0.035176) (epsilon_k_ab := some 2899.5)),
  substance "ethanol" 46.069 (record 2.3827 3.1771 198.24 (kappa_ab := some 0.032384) (epsilon_k_ab := some 2653.4)),
  substance "1-propanol" 60.096 (record 2.9997 3.2522 233.4 (kappa_ab := some 0.015268) (epsilon_k_ab := some 2276.8)),
  substance "1-butanol" 74.123 (record 2.7515 3.6139 259.59 (kappa_ab := some 0.006692) (epsilon_k_ab := some 2544.6)),
  substance "1-pentanol" 88.15 (record 3.626 3.4508 247.28 (kappa_ab := some 0.010319) (epsilon_k_ab := some 2252.1)),
  substance "1-hexanol" 102.177 (record 3.5146 3.6735 262.32 (kappa_ab := some 0.005747) (epsilon_k_ab := some 2538.9)),
  substance "1-heptanol" 116.203 (record 4.3985 3.545 253.46 (kappa_ab := some 0.001155) (epsilon_k_ab := some 2878.5)),
  substance "1-octanol" 130.23 (record 4.3555 3.7145 262.74 (kappa_ab := some 0.002197) (epsilon_k_ab := some 2754.8)),
  substance "1-nonanol" 144.257 (record 4.6839 3.7292 263.64 (kappa_ab := some 0.001427) (epsilon_k_ab := some 2941.9)),
  substance "2-propanol" 60.096 (record 3.0929 3.2085 208.42 (kappa_ab := some 0.024675) (epsilon_k_ab := some 2253.9)),
  substance "2-methyl-2-butanol" 88.15 (record 2.5487 3.9053 266.01 (kappa_ab := some 0.001863) (epsilon_k_ab := some 2618.8)),
  substance "water" 18.015 (record 1.0656 3.0007 366.51 (kappa_ab := some 0.034868) (epsilon_k_ab := some 2500.7)),
  substance "methylamine" 31.06 (record 2.3967 2.8906 214.94 (kappa_ab := some 0.095103) (epsilon_k_ab := some 684.3)),
  substance "ethylamine" 45.09 (record 2.7046 3.1343 221.53 (kappa_ab := some 0.017275) (epsilon_k_ab := some 854.7)),
  substance "1-propylamine" 59.11 (record 2.4539 3.5347 250.52 (kappa_ab := some 0.022674) (epsilon_k_ab := some 1028.1)),
  substance "2-propylamine" 59.11 (record 2.5908 3.4777 231.8 (kappa_ab := some 0.02134) (epsilon_k_ab := some 932.2)),
  substance "aniline" 93.13 (record 2.6607 3.7021 335.47 (kappa_ab := some 0.074883) (epsilon_k_ab := some 1351.6)),
  substance "acetic acid" 60.053 (record 1.3403 3.8582 211.59 (kappa_ab := some 0.07555) (epsilon_k_ab := some 3044.4))]

/-- /repo/parameters/gross2005_fit.json -/
def gross2005_fit : List (PureRecord ℚ) := [
  substance "carbon dioxide" 44.01 (record 1.6298 3.0867 163.34 (q := some 3.9546)),
  substance "carbon disulfide" 76.143 (record 1.3906 3.9453 344.25 (q := some 7.3662)),
  substance "ethylene" 28.05 (record 1.5477 3.4475 179.19 (q := some 1.9155)),
  substance "acetylene" 26.04 (record 1.5587 3.3325 174.68 (q := some 4.5415)),
  substance "nitrogen" 28.01 (record 1.1879 3.3353 90.99 (q := some 1.1151)),
  substance "chlorine" 70.905 (record 1.4682 3.448 269.67 (q := some 3.0724)),
  substance "benzene" 78.114 (record 2.2463 3.7852 296.24 (q := some 5.5907))]

/-- /repo/parameters/gross2005_literature.json -/
def gross2005_literature : List (PureRecord ℚ) := [
  substance "carbon dioxide" 44.01 (record 1.5131 3.1869 163.33 (q := some 4.4)),
  substance "carbon disulfide" 76.143 (record 1.5876 3.7106 342.08 (q := some 4.26)),
  substance "ethylene" 28.05 (record 1.5425 3.4523 179.37 (q := some 2.0)),
  substance "acetylene" 26.04 (record 1.5477 3.3428 174.48 (q := some 4.6)),
  substance "nitrogen" 28.01 (record 1.1504 3.3848 91.4 (q := some 1.43)),
  substance "chlorine" 70.905 (record 1.3934 3.5339 270.49 (q := some 4.1))]

/-- /repo/parameters/gross2006.json -/
def gross2006 : List (PureRecord ℚ) := [
  substance "acetone" 58.08 (record 2.7447 3.2742 232.99 (mu := some 2.88)),
  substance "butanone" 72.107 (record 2.9835 3.4239 244.99 (mu := some 2.78)),
  substance "2-pentanone" 86.134 (record 3.3537 3.4942 246.66 (mu := some 2.7)),
  substance "3-pentanone" 86.134 (record 3.2786 3.5159 248.69 (mu := some 2.82)),
  substance "propanal" 58.08 (record 2.6001 3.2872 235.21 (mu := some 2.72)),
  substance "butanal" 72.107 (record 2.8825 3.4698 247.09 (mu := some 2.72)),
  substance "methyl methanoate" 60.053 (record 2.6225 3.1095 239.05 (mu := some 1.77)),
  substance "ethyl methanoate" 74.079 (record 2.8338 3.3316 244.5 (mu := some 1.93)),
  substance "propyl methanoate" 88.106 (record 3.1723 3.4296 245.64 (mu := some 1.89)),
  substance "ethyl ethanoate" 88.106 (record 3.506 3.3177 230.24 (mu := some 1.78)),
  substance "propyl ethanoate" 102.13 (record 3.7658 3.4289 235.42 (mu := some 1.78)),
  substance "n-butyl ethanoate" 116.16 (record 3.9629 3.5482 242.27 (mu := some 1.87)),
  substance "methyl propanoate" 88.106 (record 3.4442 3.3255 234.26 (mu := some 1.85)),
  substance "ethyl propanoate" 102.133 (record 3.7954 3.4169 233.09 (mu := some 1.74)),
  substance "propyl propanoate" 116.16 (record 4.0993 3.4921 235.38 (mu := some 1.8)),
  substance "methyl butanoate" 102.133 (record 3.642 3.4535 240.02 (mu := some 2.03)),
  substance "dimethyl ether" 46.069 (record 2.2634 3.2723 210.29 (mu := some 1.3)),
  substance "methyl ethyl ether" 60.096 (record 2.6425 3.3794 215.79 (mu := some 1.17)),
  substance "methyl n-propyl ether" 74.123 (record 3.0004 3.4602 222.67 (mu := some 1.107)),
  substance "diethyl ether" 74.123 (record 2.9726 3.5127 219.53 (mu := some 1.15)),
  substance "dmso" 78.13 (record 3.0243 3.2427 309.36 (mu := some 3.96)),
  substance "hcl" 36.461 (record 1.5194 2.9794 203.32 (mu := some 1.109)),
  substance "chloro methane" 50.488 (record 1.807 3.3034 229.97 (mu := some 1.896)),
  substance "chloro ethane" 64.514 (record 2.2207 3.4335 237.03 (mu := some 2.05))]

/-- /repo/parameters/loetgeringlin2018.json -/
def loetgeringlin2018 : List (PureRecord ℚ) := [
  substance "pentafluoroethane [r125]" 120.022 (record 3.0838 3.1297 154.4771 (mu := some 1.5409) (q := some 0.0) (kappa_ab := some 0.0) (epsilon_k_ab := some 0.0) (viscosity := some ![(-1.3005), (-2.8541), (-0.5396), (-0.1155)])),
  substance "1,1,1,2,3,3,3-heptafluoropropane [r227ea]" 170.03 (record 3.5407 3.301 160.9843 (mu := some 1.9396) (q := some 0.0) (kappa_ab := some 0.0) (epsilon_k_ab := some 0.0) (viscosity := some ![(-1.3718), (-3.0118), (-0.554), (-0.1543)])),
  substance "1,1,1,2,3,3-hexafluoropropane [r236ea]" 152.039 (record 3.681 3.1918 177.2769 (mu := some 0.2009) (q := some 0.0) (kappa_ab := some 0.0) (epsilon_k_ab := some 0.0) (viscosity := some ![(-0.977), (-2.4251), (-0.2831), (-0.1409)])),
  substance "1,1,1,2-tetrafluoroethane [r134a]" 102.031 (record 3.1242 3.0549 165.8855 (mu := some 2.0581) (q := some 0.0) (kappa_ab := some 0.0) (epsilon_k_ab := some 0.0) (viscosity := some ![(-1.2914), (-2.6782), (-0.4505), (-0.1004)])),
  substance "1,1,1,3,3,3-hexafluoropropane [r236fa]" 152.039 (record 3.6025 3.2428 170.2242 (mu := some 1.9816) (q := some 0.0) (kappa_ab := some 0.0) (epsilon_k_ab := some 0.0) (viscosity := some ![(-1.168), (-2.6971), (-0.4772), (-0.1409)])),
  substance "1,1,1,3,3-pentafluoropropane [r245fa]" 134.049 (record 3.5888 3.1797 184.7 (mu := some 1.5559) (q := some 0.0) (kappa_ab := some 0.0) (epsilon_k_ab := some 0.0) (viscosity := some ![(-1.4285), (-2.9879), (-0.4947), (-0.1269)])),
  substance "1,1,1-trichloroethane [r140a]" 133.404 (record 2.4793 3.7527 275.4749 (mu := some 1.7808) (q := some 0.0) (kappa_ab := some 0.0) (epsilon_k_ab := some 0.0) (viscosity := some ![(-1.0325), (-2.347), (-0.4703), (-0.1264)])),
  substance "1,1,1-trifluoroethane [r143a]" 84.041 (record 2.4877 3.2839 161.4797 (mu := some 2.3204) (q := some 0.0) (kappa_ab := some 0.0) (epsilon_k_ab := some 0.0) (viscosity := some ![(-1.1297), (-2.2024), (-0.3203), (-0.0846)])),
  substance "1,1-difluoroethane [r152a]" 66.051 (record 2.5999 3.1426 179.9699 (mu := some 2.2619) (q := some 0.0) (kappa_ab := some 0.0) (epsilon_k_ab := some 0.0) (viscosity := some ![(-1.1237), (-2.1489), (-0.2769), (-0.068)])),
  substance "1,2-dichlorotetrafluoroethane [r114]" 170.921 (record 2.7766 3.6468 202.3572 (mu := some 0.6685) (q := some 0.0) (kappa_ab := some 0.0) (epsilon_k_ab := some 0.0) (viscosity := some ![(-1.1623), (-2.9065), (-0.6941), (-0.155)])),
  substance "1,3,5-trimethylbenzene" 120.194 (record 3.671 3.7284 277.6576 (mu := some 0.0) (q := some 0.0) (kappa_ab := some 0.0) (epsilon_k_ab := some 0.0) (viscosity := some ![(-1.3566), (-2.6547), (-0.5489), (-0.1157)])),
  substance "m-xylene" 106.167 (record 3.1861 3.7563 283.98 (mu := some 0.0) (q := some 0.0) (kappa_ab := some 0.0) (epsilon_k_ab := some 0.0) (viscosity := some ![(-1.2749), (-2.5804), (-0.5289), (-0.1039)])),
  substance "p-xylene" 106.167 (record 3.1723 3.7781 283.77 (mu := some 0.0) (q := some 0.0) (kappa_ab := some 0.0) (epsilon_k_ab := some 0.0) (viscosity := some ![(-1.2749), (-2.6129), (-0.5418), (-0.1039)])),
  substance "dibutyl ether" 130.23 (record 4.4126 3.6997 233.9837 (mu := some 1.1692) (q := some 0.0) (kappa_ab := some 0.0) (epsilon_k_ab := some 0.0) (viscosity := some ![(-1.3556), (-2.811), (-0.4985), (-0.1238)])),
  substance "chloroperfluoroethane [r115]" 154.467 (record 2.7628 3.5063 170.7613 (mu := some 0.5186) (q := some 0.0) (kappa_ab := some 0.0) (epsilon_k_ab := some 0.0) (viscosity := some ![(-1.1464), (-2.7197), (-0.5569), (-0.1427)])),
  substance "diethylene glycol dimethyl ether" 134.175 (record 4.2282 3.5722 258.4078 (mu := some 1.97) (q := some 0.0) (kappa_ab := some 0.0) (epsilon_k_ab := some 0.0) (viscosity := some ![(-1.2095), (-2.6243), (-0.4929), (-0.127)])),
  substance "4-isopropyltoluene" 134.221 (record 3.6373 3.907 284.1096 (mu := some 0.0) (q := some 0.0) (kappa_ab := some 0.0) (epsilon_k_ab := some 0.0) (viscosity := some ![(-1.4434), (-2.8975), (-0.641), (-0.127)])),
  substance "dipentyl ether" 158.284 (record 4.8197 3.8391 246.5082 (mu := some 1.1992) (q := some 0.0) (kappa_ab := some 0.0) (epsilon_k_ab := some 0.0) (viscosity := some ![(-1.4947), (-3.6239), (-0.8585), (-0.1456)])),
  substance "di-n-propyl ether" 102.177 (record 3.4881 3.6961 234.0444 (mu := some 1.2112) (q := some 0.0) (kappa_ab := some 0.0) (epsilon_k_ab := some 0.0) (viscosity := some ![(-1.1967), (-2.5254), (-0.4272), (-0.1005)])),
  substance "2,2,4,4,6,8,8-heptamethylnonane" 226.446 (record 5.017 4.3017 266.5519 (mu := some 0.0) (q := some 0.0) (kappa_ab := some 0.0) (epsilon_k_ab := some 0.0) (viscosity := some ![(-1.3808), (-3.2389), (-0.6518), (-0.1931)])),
  substance "2,2,4-trimethylpentane" 114.231 (record 3.1352 4.0918 250.0059 (mu := some 0.0) (q := some 0.0) (kappa_ab := some 0.0) (epsilon_k_ab := some 0.0) (viscosity := some ![(-1.1464), (-2.7647), (-0.5615), (-0.1107)])),
  substance "2,2-dimethylbutane" 86.177 (record 2.6008 4.0042 243.51 (mu := some 0.0) (q := some 0.0) (kappa_ab := some 0.0) (epsilon_k_ab := some 0.0) (viscosity := some ![(-0.9375), (-2.1668), (-0.2861), (-0.0865)])),
  substance "2,2-dimethylpropane" 72.15 (record 2.3543 3.955 225.69 (mu := some 0.0) (q := some 0.0) (kappa_ab := some 0.0) (epsilon_k_ab := some 0.0) (viscosity := some ![(-0.7986), (-2.0899), (-0.2188), (-0.0737)])),
  substance "2,3,4-trimethyl pentane" 114.231 (record 3.198 4.025 258.5959 (mu := some 0.0) (q := some 0.0) (kappa_ab := some 0.0) (epsilon_k_ab := some 0.0) (viscosity := some ![(-1.3623), (-2.932), (-0.5877), (-0.1107)])),
  substance "2,3-dimethylbutane" 86.177 (record 2.6853 3.9545 246.07 (mu := some 0.0) (q := some 0.0) (kappa_ab := some 0.0) (epsilon_k_ab := some 0.0) (viscosity := some ![(-1.177), (-2.4259), (-0.3992), (-0.0865)])),
  substance "2,4-dimethylpentane" 100.204 (record 3.1235 3.9346 239.7005 (mu := some 0.0) (q := some 0.0) (kappa_ab := some 0.0) (epsilon_k_ab := some 0.0) (viscosity := some ![(-1.2789), (-2.7334), (-0.5402), (-0.0988)])),
  substance "squalane" 422.822 (record 9.734 4.2525 263.7664 (mu := some 0.0) (q := some 0.0) (kappa_ab := some 0.0) (epsilon_k_ab := some 0.0) (viscosity := some ![(-2.6069), (-5.3734), (-1.3691), (-0.2979)])),
  substance "methyl tert-butyl ether (mtbe)" 88.15 (record 2.9286 3.711 233.9573 (mu := some 1.361) (q := some 0.0) (kappa_ab := some 0.0) (epsilon_k_ab := some 0.0) (viscosity := some ![(-0.9246), (-2.401), (-0.426), (-0.0883)])),
  substance "2-methylbutane" 72.15 (record 2.562 3.8296 230.75 (mu := some 0.0) (q := some 0.0) (kappa_ab := some 0.0) (epsilon_k_ab := some 0.0) (viscosity := some ![(-1.0805), (-2.4514), (-0.439), (-0.0737)])),
  substance "2-methylpentane" 86.177 (record 2.9317 3.8535 235.58 (mu := some 0.0) (q := some 0.0) (kappa_ab := some 0.0) (epsilon_k_ab := some 0.0) (viscosity := some ![(-1.191), (-2.5695), (-0.4813), (-0.0865)])),
  substance "isobutylene" 56.108 (record 2.2515 3.6636 223.2165 (mu := some 0.5006) (q := some 0.0) (kappa_ab := some 0.0) (epsilon_k_ab := some 0.0) (viscosity := some ![(-0.9838), (-2.1027), (-0.3034), (-0.0585)])),
  substance "2-methylpropanal" 72.107 (record 2.6157 3.5699 251.5072 (mu := some 2.6981) (q := some 0.0) (kappa_ab := some 0.0) (epsilon_k_ab := some 0.0) (viscosity := some ![(-0.5688), (-2.2652), (-0.4374), (-0.0737)])),
  substance "2-methylpropane" 58.123 (record 2.2616 3.7574 216.53 (mu := some 0.0) (q := some 0.0) (kappa_ab := some 0.0) (epsilon_k_ab := some 0.0) (viscosity := some ![(-0.9521), (-2.2586), (-0.3438), (-0.0605)])),
  substance "diisopropyl ether" 102.177 (record 3.5466 3.6737 216.8508 (mu := some 1.1302) (q := some 0.0) (kappa_ab := some 0.0) (epsilon_k_ab := some 0.0) (viscosity := some ![(-1.3532), (-2.8157), (-0.5234), (-0.1005)])),
  substance "3-ethylpentane" 100.204 (record 3.1886 3.887 247.0555 (mu := some 0.0) (q := some 0.0) (kappa_ab := some 0.0) (epsilon_k_ab := some 0.0) (viscosity := some ![(-1.2889), (-2.6369), (-0.5094), (-0.0988)])),
  substance "3-methylbutyraldehyde" 86.134 (record 3.0004 3.6188 255.2047 (mu := some 2.6082) (q := some 0.0) (kappa_ab := some 0.0) (epsilon_k_ab := some 0.0) (viscosity := some ![(-0.6655), (-1.8956), (-0.2519), (-0.0865)])),
  substance "isoamyl acetate" 130.187 (record 4.0348 3.6672 247.4168 (mu := some 1.7987) (q := some 0.0) (kappa_ab := some 0.0) (epsilon_k_ab := some 0.0) (viscosity := some ![(-1.4118), (-2.9353), (-0.5861), (-0.1238)])),
  substance "3-methylpentane" 86.177 (record 2.8852 3.8605 240.48 (mu := some 0.0) (q := some 0.0) (kappa_ab := some 0.0) (epsilon_k_ab := some 0.0) (viscosity := some ![(-1.191), (-2.5416), (-0.469), (-0.0865)])),
  substance "4-methyl-2-pentanone" 100.161 (record 3.473 3.6296 250.53 (mu := some 2.6891) (q := some 0.0) (kappa_ab := some 0.0) (epsilon_k_ab := some 0.0) (viscosity := some ![(-1.3442), (-3.0229), (-0.6378), (-0.0988)])),
  substance "n,n-diethylamine" 73.138 (record 1.3688 4.7262 295.2136 (mu := some 0.9204) (q := some 0.0) (kappa_ab := some 0.03) (epsilon_k_ab := some 1547.4422) (viscosity := some ![(-0.6824), (-2.129), (-0.5989), (-0.0746)])),
  substance "dimethylamine" 45.084 (record 2.2493 3.3738 226.4848 (mu := some 1.0313) (q := some 0.0) (kappa_ab := some 0.03) (epsilon_k_ab := some 959.5053) (viscosity := some ![(-0.3807), 2.1585, 0.9391, (-0.0477)])),
  substance "dipropylamine" 101.192 (record 3.6653 3.6551 240.4467 (mu := some 1.07) (q := some 0.0) (kappa_ab := some 0.03) (epsilon_k_ab := some 39.2881) (viscosity := some ![(-0.8987), (-2.1083), (-0.2763), (-0.0997)])),
  substance "acetaldehyde" 44.053 (record 2.1188 3.246 229.8505 (mu := some 2.6891) (q := some 0.0) (kappa_ab := some 0.0) (epsilon_k_ab := some 0.0) (viscosity := some ![(-0.3574), (-0.7933), 0.1404, (-0.0467)])),
  substance "benzene" 78.114 (record 2.2463 3.7852 296.24 (mu := some 0.0) (q := some 5.5907) (kappa_ab := some 0.0) (epsilon_k_ab := some 0.0) (viscosity := some ![(-1.0929), (-2.2871), (-0.4125), (-0.0792)])),
  substance "trifluorobromomethane [r13b1]" 148.91 (record 2.1338 3.5126 185.5387 (mu := some 0.6505) (q := some 0.0) (kappa_ab := some 0.0) (epsilon_k_ab := some 0.0) (viscosity := some ![(-0.9604), (-2.6583), (-0.7764), (-0.1385)])),
  substance "butylamine" 73.138 (record 1.7814 4.2631 293.8144 (mu := some 1.391) (q := some 0.0) (kappa_ab := some 0.03) (epsilon_k_ab := some 1497.5173) (viscosity := some ![(-0.8691), (-2.3216), (-0.5911), (-0.0746)])),
  substance "1-butanol" 74.123 (record 4.2768 3.0659 217.7082 (mu := some 1.6698) (q := some 0.0) (kappa_ab := some 0.03) (epsilon_k_ab := some 1846.2029) (viscosity := some ![(-1.0065), (-1.88906), (-0.12523), (-0.07554)])),
  substance "2-butanol" 74.123 (record 4.4207 3.0151 205.1808 (mu := some 1.6608) (q := some 0.0) (kappa_ab := some 0.03) (epsilon_k_ab := some 1718.0488) (viscosity := some ![(-0.9864), (-1.3818), 0.203, (-0.0755)])),
  substance "2-butanone" 72.107 (record 2.9835 3.4239 244.99 (mu := some 2.78) (q := some 0.0) (kappa_ab := some 0.0) (epsilon_k_ab := some 0.0) (viscosity := some ![(-1.1653), (-2.4287), (-0.4373), (-0.0737)])),
  substance "butyraldehyde" 72.107 (record 2.8825 3.4698 247.09 (mu := some 2.72) (q := some 0.0) (kappa_ab := some 0.0) (epsilon_k_ab := some 0.0) (viscosity := some ![(-0.5809), (-2.0176), (-0.3375), (-0.0737)])),
  substance "n-butane" 58.123 (record 2.3316 3.7086 222.88 (mu := some 0.0) (q := some 0.0) (kappa_ab := some 0.0) (epsilon_k_ab := some 0.0) (viscosity := some ![(-0.9763), (-2.2413), (-0.369), (-0.0605)])),
  substance "butyl acetate" 116.16 (record 3.9629 3.5482 242.27 (mu := some 1.87) (q := some 0.0) (kappa_ab := some 0.0) (epsilon_k_ab := some 0.0) (viscosity := some ![(-1.3379), (-2.7683), (-0.5104), (-0.1123)])),
  substance "butylbenzene" 134.221 (record 3.7662 3.8727 283.07 (mu := some 0.0) (q := some 0.0) (kappa_ab := some 0.0) (epsilon_k_ab := some 0.0) (viscosity := some ![(-1.4557), (-2.8655), (-0.5777), (-0.127)])),
  substance "carbon dioxide" 44.01 (record 1.5131 3.1869 163.33 (mu := some 0.0) (q := some 4.4) (kappa_ab := some 0.0) (epsilon_k_ab := some 0.0) (viscosity := some ![(-0.5138), (-1.3768), (-0.2074), (-0.0467)])),
  substance "isopropylbenzene" 120.194 (record 3.3779 3.8376 281.5324 (mu := some 0.3897) (q := some 0.0) (kappa_ab := some 0.0) (epsilon_k_ab := some 0.0) (viscosity := some ![(-1.3671), (-2.8169), (-0.6018), (-0.1157)])),
  substance "cyclohexane" 84.161 (record 2.5303 3.8499 278.11 (mu := some 0.0) (q := some 0.0) (kappa_ab := some 0.0) (epsilon_k_ab := some 0.0) (viscosity := some ![(-0.9982), (-2.3823), (-0.3169), (-0.0847)])),
  substance "cyclooctane" 112.215 (record 2.9236 3.9831 304.8636 (mu := some 0.0) (q := some 0.0) (kappa_ab := some 0.0) (epsilon_k_ab := some 0.0) (viscosity := some ![(-1.3132), (-2.4521), (-0.3023), (-0.109)])),
  substance "cyclopentane" 70.134 (record 2.3655 3.7114 265.83 (mu := some 0.0) (q := some 0.0) (kappa_ab := some 0.0) (epsilon_k_ab := some 0.0) (viscosity := some ![(-0.8485), (-2.3053), (-0.3801), (-0.0718)])),
  substance "1-decene" 140.269 (record 4.4503 3.8544 248.2291 (mu := some 0.4197) (q := some 0.0) (kappa_ab := some 0.0) (epsilon_k_ab := some 0.0) (viscosity := some ![(-1.5058), (-3.2891), (-0.7212), (-0.1318)])),
  substance "n-decylamine" 157.299 (record 2.4141 4.9185 313.772 (mu := some 1.409) (q := some 0.0) (kappa_ab := some 0.03) (epsilon_k_ab := some 2644.5966) (viscosity := some ![(-1.3992), (-3.2065), (-1.039), (-0.1449)])),
  substance "1-decanol" 158.284 (record 5.7328 3.596 243.7089 (mu := some 1.6189) (q := some 0.0) (kappa_ab := some 0.03) (epsilon_k_ab := some 1967.8312) (viscosity := some ![(-1.5371), (-2.97397), (-0.50795), (-0.14562)])),
  substance "n-decanal" 156.268 (record 5.2885 3.6634 251.9655 (mu := some 2.5782) (q := some 0.0) (kappa_ab := some 0.0) (epsilon_k_ab := some 0.0) (viscosity := some ![(-1.0452), (-2.9497), (-0.6641), (-0.1441)])),
  substance "decane" 142.285 (record 4.6627 3.8384 243.87 (mu := some 0.0) (q := some 0.0) (kappa_ab := some 0.0) (epsilon_k_ab := some 0.0) (viscosity := some ![(-1.5367), (-3.149), (-0.6154), (-0.1334)])),
  substance "dichlorofluoromethane [r21]" 102.923 (record 2.4475 3.3353 229.5168 (mu := some 1.2891) (q := some 0.0) (kappa_ab := some 0.0) (epsilon_k_ab := some 0.0) (viscosity := some ![(-0.985), (-2.3249), (-0.4743), (-0.1012)])),
  substance "difluoromethane [r32]" 52.024 (record 2.4382 2.8148 162.6954 (mu := some 1.9786) (q := some 0.0) (kappa_ab := some 0.0) (epsilon_k_ab := some 0.0) (viscosity := some ![(-1.0833), (-1.9968), (-0.2503), (-0.0546)])),
  substance "docosane" 310.607 (record 8.9886 3.9466 253.9514 (mu := some 0.0) (q := some 0.0) (kappa_ab := some 0.0) (epsilon_k_ab := some 0.0) (viscosity := some ![(-2.2094), (-4.3373), (-0.9708), (-0.243)])),
  substance "1-dodecanol" 186.338 (record 6.2353 3.6999 249.0952 (mu := some 1.6908) (q := some 0.0) (kappa_ab := some 0.03) (epsilon_k_ab := some 2002.9613) (viscosity := some ![(-1.6684), (-3.9471), (-0.9305), (-0.1661)])),
  substance "dodecane" 170.338 (record 5.306 3.8959 249.21 (mu := some 0.0) (q := some 0.0) (kappa_ab := some 0.0) (epsilon_k_ab := some 0.0) (viscosity := some ![(-1.6719), (-3.3902), (-0.6956), (-0.1546)])),
  substance "1-phenyldodecane" 246.436 (record 6.8535 3.9041 270.8303 (mu := some 0.0) (q := some 0.0) (kappa_ab := some 0.0) (epsilon_k_ab := some 0.0) (viscosity := some ![(-1.963), (-3.772), (-0.8318), (-0.2058)])),
  substance "dotriacontane" 450.876 (record 12.1112 4.0303 258.4649 (mu := some 0.0) (q := some 0.0) (kappa_ab := some 0.0) (epsilon_k_ab := some 0.0) (viscosity := some ![(-2.6388), (-5.1), (-1.2007), (-0.31)])),
  substance "ethane" 30.07 (record 1.6069 3.5206 191.42 (mu := some 0.0) (q := some 0.0) (kappa_ab := some 0.0) (epsilon_k_ab := some 0.0) (viscosity := some ![(-0.5741), (-1.5923), (-0.1959), (-0.0325)])),
  substance "1,2-ethanediol" 62.068 (record 2.6124 3.1536 310.114 (mu := some 2.4103) (q := some 0.0) (kappa_ab := some 0.03) (epsilon_k_ab := some 2711.6591) (viscosity := some ![(-0.7689), (-0.9258), (-0.1133), (-0.0642)])),
  substance "ethanol" 46.069 (record 2.3723 3.1964 203.8245 (mu := some 1.6908) (q := some 0.0) (kappa_ab := some 0.03) (epsilon_k_ab := some 2514.0609) (viscosity := some ![(-1.08153), (-1.1998), (-0.13292), (-0.0487)])),
  substance "ethylene" 28.054 (record 1.5425 3.4523 179.37 (mu := some 0.0) (q := some 2.0) (kappa_ab := some 0.0) (epsilon_k_ab := some 0.0) (viscosity := some ![(-0.4941), (-1.4818), (-0.1407), (-0.0304)])),
  substance "vinyl acetate" 86.09 (record 3.3946 3.2692 232.2234 (mu := some 1.7897) (q := some 0.0) (kappa_ab := some 0.0) (epsilon_k_ab := some 0.0) (viscosity := some ![(-1.1242), (-2.4374), (-0.4095), (-0.0864)])),
  substance "diethyl ether" 74.123 (record 2.9726 3.5127 219.53 (mu := some 1.15) (q := some 0.0) (kappa_ab := some 0.0) (epsilon_k_ab := some 0.0) (viscosity := some ![(-1.007), (-2.2992), (-0.3894), (-0.0755)])),
  substance "ethylbenzene" 106.167 (record 3.0799 3.7974 287.35 (mu := some 0.0) (q := some 0.0) (kappa_ab := some 0.0) (epsilon_k_ab := some 0.0) (viscosity := some ![(-1.2856), (-2.6929), (-0.5605), (-0.1039)])),
  substance "fluoroform [r23]" 70.014 (record 2.5662 2.8588 140.9286 (mu := some 1.6488) (q := some 0.0) (kappa_ab := some 0.0) (epsilon_k_ab := some 0.0) (viscosity := some ![(-1.0556), (-2.0562), (-0.2825), (-0.0717)])),
  substance "heneicosane" 296.58 (record 8.7495 3.9192 252.3877 (mu := some 0.0) (q := some 0.0) (kappa_ab := some 0.0) (epsilon_k_ab := some 0.0) (viscosity := some ![(-2.1622), (-4.2184), (-0.9136), (-0.2353)])),
  substance "1-heptene" 98.188 (record 3.2863 3.8138 243.7559 (mu := some 0.6296) (q := some 0.0) (kappa_ab := some 0.0) (epsilon_k_ab := some 0.0) (viscosity := some ![(-1.2614), (-2.6535), (-0.5149), (-0.0971)])),
  substance "heptadecane" 240.473 (record 6.9809 3.9675 255.65 (mu := some 0.0) (q := some 0.0) (kappa_ab := some 0.0) (epsilon_k_ab := some 0.0) (viscosity := some ![(-1.9615), (-3.8823), (-0.8386), (-0.2021)])),
  substance "heptylamine" 115.219 (record 1.688 5.0417 328.7725 (mu := some 1.6608) (q := some 0.0) (kappa_ab := some 0.03) (epsilon_k_ab := some 2220.2939) (viscosity := some ![(-1.1698), (-3.4917), (-1.0288), (-0.1116)])),
  substance "1-heptanol" 116.203 (record 4.7248 3.461 237.6069 (mu := some 1.7388) (q := some 0.0) (kappa_ab := some 0.03) (epsilon_k_ab := some 1956.8424) (viscosity := some ![(-1.3075), (-2.24414), (-0.26729), (-0.11237)])),
  substance "2-heptanol" 116.203 (record 5.135 3.3462 219.5951 (mu := some 1.6488) (q := some 0.0) (kappa_ab := some 0.03) (epsilon_k_ab := some 1878.5922) (viscosity := some ![(-1.3001), (-1.7492), 0.0215, (-0.1124)])),
  substance "4-heptanone" 114.188 (record 3.7347 3.6958 259.1972 (mu := some 2.5002) (q := some 0.0) (kappa_ab := some 0.0) (epsilon_k_ab := some 0.0) (viscosity := some ![(-1.4324), (-2.8019), (-0.5333), (-0.1107)])),
  substance "heptanal" 114.188 (record 3.8527 3.66 260.6984 (mu := some 2.5782) (q := some 0.0) (kappa_ab := some 0.0) (epsilon_k_ab := some 0.0) (viscosity := some ![(-0.8376), (-2.8879), (-0.6488), (-0.1107)])),
  substance "heptane" 100.204 (record 3.4831 3.8049 238.4 (mu := some 0.0) (q := some 0.0) (kappa_ab := some 0.0) (epsilon_k_ab := some 0.0) (viscosity := some ![(-1.2979), (-2.6936), (-0.4951), (-0.0988)])),
  substance "heptyl acetate" 158.241 (record 5.3414 3.5818 240.1371 (mu := some 1.8707) (q := some 0.0) (kappa_ab := some 0.0) (epsilon_k_ab := some 0.0) (viscosity := some ![(-1.556), (-3.0556), (-0.5314), (-0.1456)])),
  substance "heptylbenzene" 176.302 (record 4.5229 3.9994 289.0709 (mu := some 0.0) (q := some 0.0) (kappa_ab := some 0.0) (epsilon_k_ab := some 0.0) (viscosity := some ![(-1.6693), (-3.4376), (-0.8015), (-0.1589)])),
  substance "1-hexene" 84.161 (record 2.9853 3.7753 236.81 (mu := some 0.0) (q := some 0.0) (kappa_ab := some 0.0) (epsilon_k_ab := some 0.0) (viscosity := some ![(-1.164), (-2.4505), (-0.4432), (-0.0847)])),
  substance "1-hexadecanol" 242.445 (record 7.0917 3.8845 259.4044 (mu := some 1.6698) (q := some 0.0) (kappa_ab := some 0.03) (epsilon_k_ab := some 2140.2545) (viscosity := some ![(-1.8993), (-3.0227), (-0.5234), (-0.2033)])),
  substance "hexadecane" 226.446 (record 6.6485 3.9552 254.7 (mu := some 0.0) (q := some 0.0) (kappa_ab := some 0.0) (epsilon_k_ab := some 0.0) (viscosity := some ![(-1.9077), (-3.8125), (-0.829), (-0.1931)])),
  substance "hexylamine" 101.192 (record 3.9434 3.5463 247.4674 (mu := some 1.5889) (q := some 0.0) (kappa_ab := some 0.03) (epsilon_k_ab := some 82.5108) (viscosity := some ![(-1.0803), (-2.3348), (-0.3037), (-0.0997)])),
  substance "1-hexanol" 102.177 (record 4.3974 3.3897 235.5309 (mu := some 1.6488) (q := some 0.0) (kappa_ab := some 0.03) (epsilon_k_ab := some 1930.6231) (viscosity := some ![(-1.218), (-2.0634), (-0.21639), (-0.10052)])),
  substance "2-hexanol" 102.177 (record 4.7812 3.2816 217.9545 (mu := some 1.6578) (q := some 0.0) (kappa_ab := some 0.03) (epsilon_k_ab := some 1793.3615) (viscosity := some ![(-1.2075), (-1.7111), 0.0319, (-0.1005)])),
  substance "2-hexanone" 100.161 (record 3.5951 3.5814 254.4017 (mu := some 2.6801) (q := some 0.0) (kappa_ab := some 0.0) (epsilon_k_ab := some 0.0) (viscosity := some ![(-1.3512), (-2.5662), (-0.4335), (-0.0988)])),
  substance "hexane" 86.177 (record 3.0576 3.7983 236.77 (mu := some 0.0) (q := some 0.0) (kappa_ab := some 0.0) (epsilon_k_ab := some 0.0) (viscosity := some ![(-1.2035), (-2.5958), (-0.4816), (-0.0865)])),
  substance "hexatriacontane" 506.984 (record 13.0294 4.0906 261.2998 (mu := some 0.0) (q := some 0.0) (kappa_ab := some 0.0) (epsilon_k_ab := some 0.0) (viscosity := some ![(-2.7953), (-5.655), (-1.4638), (-0.3325)])),
  substance "eicosane" 282.553 (record 7.9849 3.9869 257.75 (mu := some 0.0) (q := some 0.0) (kappa_ab := some 0.0) (epsilon_k_ab := some 0.0) (viscosity := some ![(-2.1139), (-4.1759), (-0.9573), (-0.2273)])),
  substance "methylamine" 31.057 (record 1.6191 3.337 246.3797 (mu := some 1.3101) (q := some 0.0) (kappa_ab := some 0.03) (epsilon_k_ab := some 1103.6088) (viscosity := some ![(-0.369), (-1.2753), (-0.2168), (-0.0335)])),
  substance "methane" 16.043 (record 1.0 3.7039 150.03 (mu := some 0.0) (q := some 0.0) (kappa_ab := some 0.0) (epsilon_k_ab := some 0.0) (viscosity := some ![(-0.0595), (-0.8908), (-0.0348), (-0.0177)])),
  substance "methanol" 32.042 (record 1.5073 3.3248 211.5975 (mu := some 1.6998) (q := some 0.0) (kappa_ab := some 0.03) (epsilon_k_ab := some 2519.7116) (viscosity := some ![(-0.577), (-0.44059), 0.03545, (-0.01064)])),
  substance "dimethyl ether" 46.069 (record 2.2634 3.2723 210.29 (mu := some 1.3) (q := some 0.0) (kappa_ab := some 0.0) (epsilon_k_ab := some 0.0) (viscosity := some ![(-0.8518), (-1.8921), (-0.2578), (-0.0487)])),
  substance "nitrogen" 28.014 (record 1.1504 3.3848 91.4 (mu := some 0.0) (q := some 1.43) (kappa_ab := some 0.0) (epsilon_k_ab := some 0.0) (viscosity := some ![(-0.1964), (-0.9461), (-0.031), (-0.0303)])),
  substance "1-nonene" 126.242 (record 4.0617 3.8452 247.0709 (mu := some 0.5996) (q := some 0.0) (kappa_ab := some 0.0) (epsilon_k_ab := some 0.0) (viscosity := some ![(-1.4305), (-2.7664), (-0.5102), (-0.1206)])),
  substance "nonadecane" 268.527 (record 7.7175 3.9721 256.0 (mu := some 0.0) (q := some 0.0) (kappa_ab := some 0.0) (epsilon_k_ab := some 0.0) (viscosity := some ![(-2.0644), (-4.0653), (-0.8991), (-0.2191)])),
  substance "1-aminononane" 143.272 (record 2.0093 5.07 314.0984 (mu := some 0.8994) (q := some 0.0) (kappa_ab := some 0.03) (epsilon_k_ab := some 2731.5672) (viscosity := some ![(-1.3279), (-3.1517), (-1.0221), (-0.1341)])),
  substance "1-nonanol" 144.257 (record 4.749 3.729 253.6291 (mu := some 1.6099) (q := some 0.0) (kappa_ab := some 0.03) (epsilon_k_ab := some 2073.3555) (viscosity := some ![(-1.4657), (-2.71167), (-0.49511), (-0.13491)])),
  substance "nonane" 128.258 (record 4.2079 3.8448 244.51 (mu := some 0.0) (q := some 0.0) (kappa_ab := some 0.0) (epsilon_k_ab := some 0.0) (viscosity := some ![(-1.4629), (-3.0058), (-0.5842), (-0.1222)])),
  substance "nonylbenzene" 204.356 (record 5.6327 3.9104 275.8787 (mu := some 0.0) (q := some 0.0) (kappa_ab := some 0.0) (epsilon_k_ab := some 0.0) (viscosity := some ![(-1.7939), (-3.5061), (-0.7608), (-0.1785)])),
  substance "1-octene" 112.215 (record 3.7424 3.8133 243.02 (mu := some 0.0) (q := some 0.0) (kappa_ab := some 0.0) (epsilon_k_ab := some 0.0) (viscosity := some ![(-1.3495), (-2.8423), (-0.5594), (-0.109)])),
  substance "octacosane" 394.769 (record 11.4145 3.9318 252.3643 (mu := some 0.0) (q := some 0.0) (kappa_ab := some 0.0) (epsilon_k_ab := some 0.0) (viscosity := some ![(-2.4748), (-5.1281), (-1.2775), (-0.2852)])),
  substance "1-octadecanol" 270.499 (record 7.3343 3.9962 266.5143 (mu := some 1.6608) (q := some 0.0) (kappa_ab := some 0.03) (epsilon_k_ab := some 2150.7482) (viscosity := some ![(-2.0036), (-3.7363), (-0.8864), (-0.2203)])),
  substance "octadecane" 254.5 (record 7.3271 3.9668 256.2 (mu := some 0.0) (q := some 0.0) (kappa_ab := some 0.0) (epsilon_k_ab := some 0.0) (viscosity := some ![(-2.0137), (-4.0711), (-0.9298), (-0.2107)])),
  substance "1-octanamine" 129.246 (record 1.9349 4.9721 315.3046 (mu := some 1.421) (q := some 0.0) (kappa_ab := some 0.03) (epsilon_k_ab := some 2476.9879) (viscosity := some ![(-1.2518), (-2.9995), (-0.9478), (-0.123)])),
  substance "1-octanol" 130.23 (record 5.7204 3.3562 228.8515 (mu := some 1.6488) (q := some 0.0) (kappa_ab := some 0.03) (epsilon_k_ab := some 1869.8446) (viscosity := some ![(-1.3896), (-2.58867), (-0.28276), (-0.12383)])),
  substance "2-octanol" 130.23 (record 5.7545 3.3545 220.9018 (mu := some 1.6488) (q := some 0.0) (kappa_ab := some 0.03) (epsilon_k_ab := some 1721.3869) (viscosity := some ![(-1.3845), (-1.1782), 0.3771, (-0.1238)])),
  substance "2-octanone" 128.214 (record 4.467 3.6222 252.4353 (mu := some 2.4613) (q := some 0.0) (kappa_ab := some 0.0) (epsilon_k_ab := some 0.0) (viscosity := some ![(-1.5078), (-2.842), (-0.5162), (-0.1222)])),
  substance "octane" 114.231 (record 3.8176 3.8373 242.78 (mu := some 0.0) (q := some 0.0) (kappa_ab := some 0.0) (epsilon_k_ab := some 0.0) (viscosity := some ![(-1.3837), (-2.8569), (-0.5461), (-0.1107)])),
  substance "pentadecane" 212.419 (record 6.2855 3.9531 254.14 (mu := some 0.0) (q := some 0.0) (kappa_ab := some 0.0) (epsilon_k_ab := some 0.0) (viscosity := some ![(-1.8521), (-3.7647), (-0.8216), (-0.1839)])),
  substance "1-aminopentane" 87.165 (record 1.6177 4.656 302.1019 (mu := some 1.5499) (q := some 0.0) (kappa_ab := some 0.03) (epsilon_k_ab := some 1923.3059) (viscosity := some ![(-0.9812), (-2.6533), (-0.7457), (-0.0874)])),
  substance "1-pentanol" 88.15 (record 4.305 3.2421 228.6214 (mu := some 1.7) (q := some 0.0) (kappa_ab := some 0.03) (epsilon_k_ab := some 1835.0315) (viscosity := some ![(-1.1188), (-2.22062), (-0.25493), (-0.08825)])),
  substance "2-pentanol" 88.15 (record 5.2839 3.0076 200.0793 (mu := some 1.6668) (q := some 0.0) (kappa_ab := some 0.03) (epsilon_k_ab := some 1713.2429) (viscosity := some ![(-1.1043), (-1.0389), 0.4671, (-0.0883)])),
  substance "3-pentanol" 88.15 (record 4.7983 3.0947 203.9658 (mu := some 1.6399) (q := some 0.0) (kappa_ab := some 0.03) (epsilon_k_ab := some 1806.0011) (viscosity := some ![(-1.1043), (-0.9823), 0.4199, (-0.0883)])),
  substance "3-pentanone" 86.134 (record 3.2786 3.5159 248.69 (mu := some 2.82) (q := some 0.0) (kappa_ab := some 0.0) (epsilon_k_ab := some 0.0) (viscosity := some ![(-1.2629), (-2.5335), (-0.4528), (-0.0865)])),
  substance "pentane" 72.15 (record 2.6896 3.7729 231.2 (mu := some 0.0) (q := some 0.0) (kappa_ab := some 0.0) (epsilon_k_ab := some 0.0) (viscosity := some ![(-1.0978), (-2.4577), (-0.4397), (-0.0737)])),
  substance "amyl acetate" 130.187 (record 4.1066 3.646 249.3581 (mu := some 1.7208) (q := some 0.0) (kappa_ab := some 0.0) (epsilon_k_ab := some 0.0) (viscosity := some ![(-1.4154), (-2.7149), (-0.4738), (-0.1238)])),
  substance "propylene" 42.081 (record 1.9597 3.5356 207.19 (mu := some 0.0) (q := some 0.0) (kappa_ab := some 0.0) (epsilon_k_ab := some 0.0) (viscosity := some ![(-0.7728), (-1.9599), (-0.2842), (-0.0447)])),
  substance "n-propylamine" 59.111 (record 3.4083 3.1114 217.4541 (mu := some 1.1692) (q := some 0.0) (kappa_ab := some 0.03) (epsilon_k_ab := some 86.0572) (viscosity := some ![(-0.7383), (-1.7723), (-0.0548), (-0.0614)])),
  substance "1-propanol" 60.096 (record 3.4604 3.0742 217.3745 (mu := some 1.6788) (q := some 0.0) (kappa_ab := some 0.03) (epsilon_k_ab := some 2044.5298) (viscosity := some ![(-0.8756), (-1.47721), (-0.08931), (-0.06237)])),
  substance "2-propanol" 60.096 (record 4.0249 2.918 198.5953 (mu := some 1.6608) (q := some 0.0) (kappa_ab := some 0.03) (epsilon_k_ab := some 1871.8788) (viscosity := some ![(-0.847), (-1.0735), 0.2102, (-0.0624)])),
  substance "acetone" 58.08 (record 2.7447 3.2742 232.99 (mu := some 2.88) (q := some 0.0) (kappa_ab := some 0.0) (epsilon_k_ab := some 0.0) (viscosity := some ![(-1.0551), (-2.22), (-0.3547), (-0.0604)])),
  substance "propanal" 58.08 (record 2.6001 3.2872 235.21 (mu := some 2.72) (q := some 0.0) (kappa_ab := some 0.0) (epsilon_k_ab := some 0.0) (viscosity := some ![(-0.4766), (-1.3477), (-0.0555), (-0.0604)])),
  substance "propane" 44.097 (record 2.002 3.6184 208.11 (mu := some 0.0) (q := some 0.0) (kappa_ab := some 0.0) (epsilon_k_ab := some 0.0) (viscosity := some ![(-0.8013), (-1.9972), (-0.2907), (-0.0467)])),
  substance "propyl acetate" 102.133 (record 3.7658 3.4289 235.42 (mu := some 1.78) (q := some 0.0) (kappa_ab := some 0.0) (epsilon_k_ab := some 0.0) (viscosity := some ![(-1.2543), (-2.2953), (-0.2853), (-0.1005)])),
  substance "propylbenzene" 120.194 (record 3.3438 3.8438 288.13 (mu := some 0.0) (q := some 0.0) (kappa_ab := some 0.0) (epsilon_k_ab := some 0.0) (viscosity := some ![(-1.3743), (-2.1888), (-0.3417), (-0.1157)])),
  substance "tetracosane" 338.661 (record 9.7959 3.9384 253.5506 (mu := some 0.0) (q := some 0.0) (kappa_ab := some 0.0) (epsilon_k_ab := some 0.0) (viscosity := some ![(-2.301), (-4.6041), (-1.0303), (-0.2578)])),
  substance "1-tetradecanol" 214.392 (record 5.9103 3.9832 266.3354 (mu := some 1.55) (q := some 0.0) (kappa_ab := some 0.03) (epsilon_k_ab := some 2238.1838) (viscosity := some ![(-1.7882), (-2.8133), (-0.5546), (-0.1852)])),
  substance "tetradecane" 198.392 (record 5.9002 3.9396 254.21 (mu := some 0.0) (q := some 0.0) (kappa_ab := some 0.0) (epsilon_k_ab := some 0.0) (viscosity := some ![(-1.7945), (-3.5557), (-0.7385), (-0.1744)])),
  substance "toluene" 92.141 (record 2.8149 3.7169 285.69 (mu := some 0.0) (q := some 0.0) (kappa_ab := some 0.0) (epsilon_k_ab := some 0.0) (viscosity := some ![(-1.1874), (-2.4505), (-0.4581), (-0.0918)])),
  substance "triacontane" 422.822 (record 11.4888 4.0142 258.3031 (mu := some 0.0) (q := some 0.0) (kappa_ab := some 0.0) (epsilon_k_ab := some 0.0) (viscosity := some ![(-2.5579), (-4.7635), (-1.0517), (-0.2979)])),
  substance "tricosane" 324.634 (record 9.3851 3.9416 254.1439 (mu := some 0.0) (q := some 0.0) (kappa_ab := some 0.0) (epsilon_k_ab := some 0.0) (viscosity := some ![(-2.2556), (-4.2312), (-0.8951), (-0.2505)])),
  substance "n-tridecanol" 200.365 (record 5.5859 3.9862 265.7028 (mu := some 1.6488) (q := some 0.0) (kappa_ab := some 0.03) (epsilon_k_ab := some 2212.4364) (viscosity := some ![(-1.7295), (-2.8003), (-0.5484), (-0.1758)])),
  substance "tridecane" 184.365 (record 5.6877 3.9143 249.78 (mu := some 0.0) (q := some 0.0) (kappa_ab := some 0.0) (epsilon_k_ab := some 0.0) (viscosity := some ![(-1.7345), (-3.4695), (-0.7043), (-0.1647)])),
  substance "1-undecanol" 172.311 (record 7.3595 3.38 225.1381 (mu := some 1.6698) (q := some 0.0) (kappa_ab := some 0.03) (epsilon_k_ab := some 1888.8681) (viscosity := some ![(-1.6044), (-3.44231), (-0.5589), (-0.156)])),
  substance "n-undecane" 156.312 (record 4.9082 3.8893 248.82 (mu := some 0.0) (q := some 0.0) (kappa_ab := some 0.0) (epsilon_k_ab := some 0.0) (viscosity := some ![(-1.6062), (-3.2485), (-0.65), (-0.1441)]))]

/-- /repo/parameters/rehner2020.json -/
def rehner2020 : List (PureRecord ℚ) := [
  substance "water_2B" 18.01528 (record 1.0 2.937523956051823 272.02757407828676 (kappa_ab := some 0.04448012165716923) (epsilon_k_ab := some 3125.3202766200056)),
  substance "water_3B" 18.01528 (record 1.6330279759286626 2.4570046159550527 238.31794591948915 (kappa_ab := some 0.037807044304069184) (epsilon_k_ab := some 2749.004567423258) (na := some 2)),
  substance "water_4C" 18.01528 (record 1.8668282082622842 2.395032022200541 169.7751872692369 (kappa_ab := some 0.13373757842938191) (epsilon_k_ab := some 1772.0393059972052) (na := some 2) (nb := some 2)),
  substance "water_2B_polar" 18.01528 (record 1.0 3.0053968064475254 166.6147951235982 (mu := some 1.6152087869692175) (kappa_ab := some 0.09819448826630345) (epsilon_k_ab := some 2667.2518268470913)),
  substance "water_3B_polar" 18.01528 (record 1.0487827145942152 2.9895654834474055 115.19417276271591 (mu := some 1.9373715367486852) (kappa_ab := some 0.038235772849856756) (epsilon_k_ab := some 2377.871413812318) (na := some 2)),
  substance "water_4C_polar" 18.01528 (record 1.2808374569976761 2.8129248869728167 117.77773610908815 (mu := some 1.5050185176397637) (kappa_ab := some 0.082906656369032) (epsilon_k_ab := some 1784.1459137848506) (na := some 2) (nb := some 2)),
  substance "methanol" 32.04216 (record 2.4858111592517935 2.7309279912978557 101.0845669390466 (kappa_ab := some 0.11953491759977186) (epsilon_k_ab := some 1834.845540500216) (na := some 2) (nb := some 2)),
  substance "ethanol" 46.06904 (record 3.0177191329816138 2.9146460964033283 124.58467252505255 (kappa_ab := some 0.10067627754508424) (epsilon_k_ab := some 1810.4338396651838) (na := some 2) (nb := some 2)),
  substance "1-propanol" 60.09592 (record 2.7557896027662503 3.311440076695859 144.37733584205245 (kappa_ab := some 0.05810650285845608) (epsilon_k_ab := some 1959.8294504365563) (na := some 2) (nb := some 2)),
  substance "1-butanol" 74.1228 (record 3.318220777078113 3.3475818564926207 163.6648110273199 (kappa_ab := some 0.07216895211562263) (epsilon_k_ab := some 1862.0561323915151) (na := some 2) (nb := some 2)),
  substance "1-pentanol" 88.14968 (record 3.2860051452076284 3.5782776734658577 179.754303082289 (kappa_ab := some 0.0762520371571717) (epsilon_k_ab := some 1824.6154575116475) (na := some 2) (nb := some 2)),
  substance "1-hexanol" 102.1766 (record 3.3311680900063463 3.7482827652225086 270.86189939448803 (kappa_ab := some 0.002566318648210027) (epsilon_k_ab := some 2778.9261790720657)),
  substance "1-heptanol" 116.2034 (record 4.25093612985804 3.620930465025628 252.7630330258869 (kappa_ab := some 0.003060843493411822) (epsilon_k_ab := some 2700.937487295063)),
  substance "1-octanol" 130.2303 (record 4.001221642367511 3.8281719743325215 268.72917896983984 (kappa_ab := some 0.0031104598923094376) (epsilon_k_ab := some 2804.2762044751535)),
  substance "1-nonanol" 144.257 (record 4.047137615762045 3.942380472821992 278.68277806898686 (kappa_ab := some 0.0014907242131781597) (epsilon_k_ab := some 3103.6530564736395)),
  substance "1-decanol" 158.2841 (record 4.185921112037352 4.042094734564122 281.2912655243266 (kappa_ab := some 0.002493036173908781) (epsilon_k_ab := some 3023.609567972825)),
  substance "1-dodecanol" 186.3378 (record 5.140293804729545 3.977088533521953 274.5543622578429 (kappa_ab := some 0.0012672291257527345) (epsilon_k_ab := some 3223.361822388517)),
  substance "2-propanol" 60.09592 (record 3.7734002553252854 2.9580225196713137 136.16495641117777 (kappa_ab := some 0.09762722816926367) (epsilon_k_ab := some 1718.8359393009746) (na := some 2) (nb := some 2)),
  substance "2-butanol" 74.1228 (record 4.8327476817460235 2.9056637283694267 149.97423748959227 (kappa_ab := some 0.16261464675774262) (epsilon_k_ab := some 1469.6277485887485) (na := some 2) (nb := some 2)),
  substance "2-pentanol" 88.14968 (record 4.2949907034388595 3.2253888374771633 159.24901703474268 (kappa_ab := some 0.0787091926637352) (epsilon_k_ab := some 1771.398524849797) (na := some 2) (nb := some 2)),
  substance "3-pentanol" 88.15 (record 4.509382495395084 3.1583304901996687 162.73433804276743 (kappa_ab := some 0.12199296128478557) (epsilon_k_ab := some 1516.0966359637514) (na := some 2) (nb := some 2)),
  substance "1,2-ethanediol" 62.06844 (record 2.206326914593148 3.3447087805531535 211.90069259634961 (kappa_ab := some 0.041207808637705026) (epsilon_k_ab := some 2550.2519514335218) (na := some 2) (nb := some 2)),
  substance "1,2-propanediol" 76.09532 (record 3.485594322858587 3.083720347164495 183.09717953416344 (kappa_ab := some 0.08499573407848357) (epsilon_k_ab := some 2268.8453113675146) (na := some 2) (nb := some 2)),
  substance "glycerol" 92.09472 (record 2.294072668747126 3.6606590687653835 299.7826857254255 (kappa_ab := some 0.019561736415810844) (epsilon_k_ab := some 3069.7332849899476) (na := some 2) (nb := some 2))]

/-- all pure-component files -/
def substances : List (PureRecord ℚ) :=
  gross2001 ++ gross2002 ++ gross2005_fit ++ gross2005_literature ++ gross2006 ++ loetgeringlin2018 ++ rehner2020

/-- the groups of the group contribution files -/
inductive Group
  | CH3 | CH2 | CH | C | dCH2 | dCH | dC | tCCH | CH2_hex | CH_hex | CH2_pent | CH_pent | CH_arom | C_arom | CHO | CO | OCH3 | OCH2 | HCOO | COO | OH | NH2
  deriving DecidableEq

/-- /repo/parameters/sauer2014_homo.json -/
def sauer2014_homo : Group → PcSaftRecord ℚ
  | .CH3 => record 0.61198 3.7202 229.90
  | .CH2 => record 0.45606 3.8900 239.01
  | .CH => record 0.14304 4.8597 347.64
  | .C => record (-0.66997) (-1.7878) 107.68
  | .dCH2 => record 0.36939 4.0264 289.49
  | .dCH => record 0.56361 3.5519 216.69
  | .dC => record 0.86367 3.1815 156.31
  | .tCCH => record 1.3279 2.9421 223.05
  | .CH2_hex => record 0.39496 3.9126 289.03
  | .CH_hex => record 0.02880 8.9779 1306.7
  | .CH2_pent => record 0.46742 3.7272 267.16
  | .CH_pent => record 0.03314 7.7190 1297.7
  | .CH_arom => record 0.42335 3.7270 274.41
  | .C_arom => record 0.15371 3.9622 527.20
  | .CHO => record 1.5774 2.8035 242.99 (mu := some 2.4556)
  | .CO => record 1.2230 2.8124 249.04 (mu := some 3.2432)
  | .OCH3 => record 1.6539 3.0697 196.05 (mu := some 1.3866)
  | .OCH2 => record 1.1349 3.2037 187.13 (mu := some 2.7440)
  | .HCOO => record 1.7525 2.9043 229.63 (mu := some 2.7916)
  | .COO => record 1.5063 2.8166 222.52 (mu := some 3.1652)
  | .OH => record 0.40200 3.2859 488.66 (kappa_ab := some 0.006825) (epsilon_k_ab := some 2517.0)
  | .NH2 => record 0.40558 3.6456 467.59 (kappa_ab := some 0.026662) (epsilon_k_ab := some 1064.6)

/-- /repo/parameters/loetgeringlin2015_homo.json -/
def loetgeringlin2015_homo : Group → PcSaftRecord ℚ
  | .CH3 => record 0.61198 3.7202 229.90 (viscosity := some ![(-8.6878e-3), (-1.7951e-1), (-12.2359e-2), (-0.01245)])
  | .CH2 => record 0.45606 3.8900 239.01 (viscosity := some ![(-0.9194e-3), (-1.3316e-1), (-4.2657e-2), (-0.01245)])
  | .CH => record 0.14304 4.8597 347.64 (viscosity := some ![12.8159e-3, (-0.3416e-1), 5.5752e-2, (-0.01245)])
  | .C => record (-0.66997) (-1.7878) 107.68 (viscosity := some ![152.5629e-3, 12.3998e-1, 13.8406e-2, (-0.01245)])
  | .dCH2 => record 0.36939 4.0264 289.49 (viscosity := some ![(-6.3736e-3), 42.4367e-1, (-10.8726e-2), (-0.01245)])
  | .dCH => record 0.56361 3.5519 216.69 (viscosity := some ![(-5.0637e-3), (-43.5678e-1), (-5.4247e-2), (-0.01245)])
  | .dC => record 0.86367 3.1815 156.31
  | .tCCH => record 1.3279 2.9421 223.05
  | .CH2_hex => record 0.39496 3.9126 289.03 (viscosity := some ![(-3.7896e-3), (-1.4796e-1), (-4.5017e-2), (-0.01245)])
  | .CH_hex => record 0.02880 8.9779 1306.7
  | .CH2_pent => record 0.46742 3.7272 267.16 (viscosity := some ![(-3.8105e-3), (-1.628e-1), (-6.7905e-2), (-0.01245)])
  | .CH_pent => record 0.03314 7.7190 1297.7
  | .CH_arom => record 0.42335 3.7270 274.41 (viscosity := some ![(-4.7664e-3), (-1.6842e-1), (-6.5606e-2), (-0.01245)])
  | .C_arom => record 0.15371 3.9622 527.20 (viscosity := some ![14.428e-3, 0.1104e-1, (-0.0699e-2), (-0.01245)])
  | .CHO => record 1.5774 2.8035 242.99 (mu := some 2.4556) (viscosity := some ![8.8675e-3, (-1.482e-1), (-9.1325e-2), (-0.01245)])
  | .CO => record 1.2230 2.8124 249.04 (mu := some 3.2432)
  | .OCH3 => record 1.6539 3.0697 196.05 (mu := some 1.3866) (viscosity := some ![(-4.6001e-3), (-1.6433e-1), (-5.3118e-2), (-0.01245)])
  | .OCH2 => record 1.1349 3.2037 187.13 (mu := some 2.7440) (viscosity := some ![(-5.5435e-3), (-2.2345e-1), (-9.9967e-2), (-0.01245)])
  | .HCOO => record 1.7525 2.9043 229.63 (mu := some 2.7916)
  | .COO => record 1.5063 2.8166 222.52 (mu := some 3.1652) (viscosity := some ![(-0.3295e-3), (-1.1893e-1), 6.9576e-2, (-0.01245)])
  | .OH => record 0.40200 3.2859 488.66 (kappa_ab := some 0.006825) (epsilon_k_ab := some 2517.0) (viscosity := some ![(-15.7583e-3), (-2.5654e-1), (-23.1537e-2), (-0.01245)])
  | .NH2 => record 0.40558 3.6456 467.59 (kappa_ab := some 0.026662) (epsilon_k_ab := some 1064.6) (viscosity := some ![(-4.4048e-3), (-0.6089e-1), (-8.9017e-2), (-0.01245)])

/-- the groups of each substance of /repo/parameters/gc_substances.json -/
def gc_substances : List (String × List Group) := [
  ("methanol", [.CH3, .OH]),
  ("ethanol", [.CH3, .CH2, .OH]),
  ("1-propanol", [.CH3, .CH2, .CH2, .OH]),
  ("1-butanol", [.CH3, .CH2, .CH2, .CH2, .OH]),
  ("1-pentanol", [.CH3, .CH2, .CH2, .CH2, .CH2, .OH]),
  ("1-hexanol", [.CH3, .CH2, .CH2, .CH2, .CH2, .CH2, .OH]),
  ("1-heptanol", [.CH3, .CH2, .CH2, .CH2, .CH2, .CH2, .CH2, .OH]),
  ("1-octanol", [.CH3, .CH2, .CH2, .CH2, .CH2, .CH2, .CH2, .CH2, .OH]),
  ("1-nonanol", [.CH3, .CH2, .CH2, .CH2, .CH2, .CH2, .CH2, .CH2, .CH2, .OH]),
  ("2-propanol", [.CH3, .CH, .OH, .CH3]),
  ("2-methyl-2-butanol", [.CH3, .CH2, .C, .CH3, .CH3, .OH]),
  ("methylamine", [.CH3, .NH2]),
  ("ethylamine", [.CH3, .CH2, .NH2]),
  ("1-propylamine", [.CH3, .CH2, .CH2, .NH2]),
  ("2-propylamine", [.CH3, .CH, .CH3, .NH2]),
  ("aniline", [.CH_arom, .CH_arom, .CH_arom, .CH_arom, .CH_arom, .C_arom, .NH2]),
  ("acetic acid", [.HCOO, .CH3]),
  ("ethane", [.CH3, .CH3]),
  ("propane", [.CH3, .CH2, .CH3]),
  ("butane", [.CH3, .CH2, .CH2, .CH3]),
  ("pentane", [.CH3, .CH2, .CH2, .CH2, .CH3]),
  ("hexane", [.CH3, .CH2, .CH2, .CH2, .CH2, .CH3]),
  ("heptane", [.CH3, .CH2, .CH2, .CH2, .CH2, .CH2, .CH3]),
  ("octane", [.CH3, .CH2, .CH2, .CH2, .CH2, .CH2, .CH2, .CH3]),
  ("nonane", [.CH3, .CH2, .CH2, .CH2, .CH2, .CH2, .CH2, .CH2, .CH3]),
  ("decane", [.CH3, .CH2, .CH2, .CH2, .CH2, .CH2, .CH2, .CH2, .CH2, .CH3]),
  ("undecane", [.CH3, .CH2, .CH2, .CH2, .CH2, .CH2, .CH2, .CH2, .CH2, .CH2, .CH3]),
  ("dodecane", [.CH3, .CH2, .CH2, .CH2, .CH2, .CH2, .CH2, .CH2, .CH2, .CH2, .CH2, .CH3]),
  ("tridecane", [.CH3, .CH2, .CH2, .CH2, .CH2, .CH2, .CH2, .CH2, .CH2, .CH2, .CH2, .CH2, .CH3]),
  ("tetradecane", [.CH3, .CH2, .CH2, .CH2, .CH2, .CH2, .CH2, .CH2, .CH2, .CH2, .CH2, .CH2, .CH2, .CH3]),
  ("pentadecane", [.CH3, .CH2, .CH2, .CH2, .CH2, .CH2, .CH2, .CH2, .CH2, .CH2, .CH2, .CH2, .CH2, .CH2, .CH3]),
  ("hexadecane", [.CH3, .CH2, .CH2, .CH2, .CH2, .CH2, .CH2, .CH2, .CH2, .CH2, .CH2, .CH2, .CH2, .CH2, .CH2, .CH3]),
  ("heptadecane", [.CH3, .CH2, .CH2, .CH2, .CH2, .CH2, .CH2, .CH2, .CH2, .CH2, .CH2, .CH2, .CH2, .CH2, .CH2, .CH2, .CH3]),
  ("octadecane", [.CH3, .CH2, .CH2, .CH2, .CH2, .CH2, .CH2, .CH2, .CH2, .CH2, .CH2, .CH2, .CH2, .CH2, .CH2, .CH2, .CH2, .CH3]),
  ("nonadecane", [.CH3, .CH2, .CH2, .CH2, .CH2, .CH2, .CH2, .CH2, .CH2, .CH2, .CH2, .CH2, .CH2, .CH2, .CH2, .CH2, .CH2, .CH2, .CH3]),
  ("eicosane", [.CH3, .CH2, .CH2, .CH2, .CH2, .CH2, .CH2, .CH2, .CH2, .CH2, .CH2, .CH2, .CH2, .CH2, .CH2, .CH2, .CH2, .CH2, .CH2, .CH3]),
  ("isobutane", [.CH, .CH3, .CH3, .CH3]),
  ("isopentane", [.CH3, .CH, .CH2, .CH3, .CH3]),
  ("neopentane", [.C, .CH3, .CH3, .CH3, .CH3]),
  ("2-methylpentane", [.CH3, .CH, .CH2, .CH2, .CH3, .CH3]),
  ("2,2-dimethylbutane", [.CH3, .C, .CH2, .CH3, .CH3, .CH3]),
  ("2,3-dimethylbutane", [.CH3, .CH, .CH, .CH3, .CH3, .CH3]),
  ("3-methylpentane", [.CH3, .CH2, .CH, .CH2, .CH3, .CH3]),
  ("2-methylhexane", [.CH3, .CH, .CH2, .CH2, .CH2, .CH3, .CH3]),
  ("cyclopentane", [.CH2_pent, .CH2_pent, .CH2_pent, .CH2_pent, .CH2_pent]),
  ("cyclohexane", [.CH2_hex, .CH2_hex, .CH2_hex, .CH2_hex, .CH2_hex, .CH2_hex]),
  ("methylcyclopentane", [.CH2_pent, .CH2_pent, .CH2_pent, .CH2_pent, .CH_pent, .CH3]),
  ("methylcyclohexane", [.CH2_hex, .CH2_hex, .CH2_hex, .CH2_hex, .CH2_hex, .CH_hex, .CH3]),
  ("ethylcyclopentane", [.CH2_pent, .CH2_pent, .CH2_pent, .CH2_pent, .CH_pent, .CH2, .CH3]),
  ("ethylcyclohexane", [.CH2_hex, .CH2_hex, .CH2_hex, .CH2_hex, .CH2_hex, .CH_hex, .CH2, .CH3]),
  ("ethylene", [.dCH2, .dCH2]),
  ("propylene", [.dCH2, .dCH, .CH3]),
  ("1-butene", [.dCH2, .dCH, .CH2, .CH3]),
  ("1-pentene", [.dCH2, .dCH, .CH2, .CH2, .CH3]),
  ("1-hexene", [.dCH2, .dCH, .CH2, .CH2, .CH2, .CH3]),
  ("1-octene", [.dCH2, .dCH, .CH2, .CH2, .CH2, .CH2, .CH2, .CH3]),
  ("cyclopentene", [.CH2_pent, .CH2_pent, .CH2_pent, .CH_pent, .CH_pent]),
  ("benzene", [.CH_arom, .CH_arom, .CH_arom, .CH_arom, .CH_arom, .CH_arom]),
  ("toluene", [.CH_arom, .CH_arom, .CH_arom, .CH_arom, .CH_arom, .C_arom, .CH3]),
  ("ethylbenzene", [.CH_arom, .CH_arom, .CH_arom, .CH_arom, .CH_arom, .C_arom, .CH2, .CH3]),
  ("m-xylene", [.CH_arom, .C_arom, .CH_arom, .CH_arom, .CH_arom, .C_arom, .CH3, .CH3]),
  ("o-xylene", [.CH_arom, .CH_arom, .CH_arom, .CH_arom, .C_arom, .C_arom, .CH3, .CH3]),
  ("p-xylene", [.C_arom, .CH_arom, .CH_arom, .C_arom, .CH_arom, .CH_arom, .CH3, .CH3]),
  ("n-propylbenzene", [.CH_arom, .CH_arom, .CH_arom, .CH_arom, .CH_arom, .C_arom, .CH2, .CH2, .CH3]),
  ("tetralin", [.CH_arom, .CH_arom, .CH_arom, .CH_arom, .C_arom, .C_arom, .CH2_hex, .CH2_hex, .CH2_hex, .CH2_hex]),
  ("n-butylbenzene", [.CH_arom, .CH_arom, .CH_arom, .CH_arom, .CH_arom, .C_arom, .CH2, .CH2, .CH2, .CH3]),
  ("biphenyl", [.CH_arom, .CH_arom, .CH_arom, .CH_arom, .CH_arom, .C_arom, .C_arom, .CH_arom, .CH_arom, .CH_arom, .CH_arom, .CH_arom]),
  ("dimethyl ether", [.CH3, .OCH3]),
  ("diethyl ether", [.CH3, .OCH2, .CH2, .CH3]),
  ("methyl n-propyl ether", [.OCH3, .CH2, .CH2, .CH3]),
  ("methyl methanoate", [.HCOO, .CH3]),
  ("ethyl methanoate", [.HCOO, .CH2, .CH3]),
  ("propyl methanoate", [.HCOO, .CH2, .CH2, .CH3]),
  ("ethyl ethanoate", [.CH3, .COO, .CH2, .CH3]),
  ("propyl ethanoate", [.CH3, .COO, .CH2, .CH2, .CH3]),
  ("n-butyl ethanoate", [.CH3, .COO, .CH2, .CH2, .CH2, .CH3]),
  ("isopropyl ethanoate", [.CH3, .CH2, .COO, .CH3, .CH3]),
  ("methyl propanoate", [.CH3, .CH2, .COO, .CH3]),
  ("ethyl propanoate", [.CH3, .CH2, .COO, .CH2, .CH3]),
  ("propyl propanoate", [.CH3, .CH2, .COO, .CH2, .CH2, .CH3]),
  ("methyl butanoate", [.CH3, .CH2, .CH2, .COO, .CH3]),
  ("acetone", [.CH3, .CO, .CH3]),
  ("butanone", [.CH3, .CO, .CH2, .CH3]),
  ("2-pentanone", [.CH3, .CH2, .CH2, .CO, .CH3]),
  ("3-pentanone", [.CH3, .CH2, .CO, .CH2, .CH3]),
  ("propanal", [.CH3, .CH2, .CHO]),
  ("butanal", [.CH3, .CH2, .CH2, .CHO]),
  ("methyl methanoate", [.HCOO, .CH3]),
  ("ethyl methanoate", [.HCOO, .CH2, .CH3]),
  ("propyl methanoate", [.HCOO, .CH2, .CH2, .CH3]),
  ("ethyl ethanoate", [.CH3, .COO, .CH2, .CH3]),
  ("propyl ethanoate", [.CH3, .COO, .CH2, .CH2, .CH3]),
  ("n-butyl ethanoate", [.CH3, .COO, .CH2, .CH2, .CH2, .CH3]),
  ("methyl propanoate", [.CH3, .CH2, .COO, .CH3]),
  ("ethyl propanoate", [.CH3, .CH2, .COO, .CH2, .CH3]),
  ("propyl propanoate", [.CH3, .CH2, .COO, .CH2, .CH2, .CH3]),
  ("methyl butanoate", [.CH3, .CH2, .CH2, .COO, .CH3]),
  ("dimethyl ether", [.CH3, .OCH3]),
  ("methyl ethyl ether", [.CH3, .CH2, .OCH3]),
  ("methyl n-propyl ether", [.OCH3, .CH2, .CH2, .CH3]),
  ("diethyl ether", [.CH3, .OCH2, .CH2, .CH3]),
  ("ethylene", [.dCH2, .dCH2])]

end PcSaft.Shipped
