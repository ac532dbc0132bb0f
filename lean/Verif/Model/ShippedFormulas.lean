import Verif.Model.Shipped

/-! # Chemical formulas in the parameter files shipped with the crate

Generated by tools/shipped.py from /repo/parameters: the field `formula` of the identifiers, in the order of the records,
and the molar weights of the groups. -/

namespace PcSaft.Shipped

/-- numbers of atoms; the files contain no other elements -/
structure Atoms where
  C : ℕ := 0
  H : ℕ := 0
  N : ℕ := 0
  O : ℕ := 0
  F : ℕ := 0
  S : ℕ := 0
  Cl : ℕ := 0
  Br : ℕ := 0
  Ar : ℕ := 0
  deriving DecidableEq

/-- formulas in /repo/parameters/gross2001.json -/
def gross2001_formulas : List Atoms := [
  { C := 1, H := 4 },
  { C := 2, H := 6 },
  { C := 3, H := 8 },
  { C := 4, H := 10 },
  { C := 5, H := 12 },
  { C := 6, H := 14 },
  { C := 7, H := 16 },
  { C := 8, H := 18 },
  { C := 9, H := 20 },
  { C := 10, H := 22 },
  { C := 11, H := 24 },
  { C := 12, H := 26 },
  { C := 13, H := 28 },
  { C := 14, H := 30 },
  { C := 15, H := 32 },
  { C := 16, H := 34 },
  { C := 17, H := 36 },
  { C := 18, H := 38 },
  { C := 19, H := 40 },
  { C := 20, H := 42 },
  { C := 4, H := 10 },
  { C := 5, H := 12 },
  { C := 5, H := 12 },
  { C := 6, H := 14 },
  { C := 6, H := 14 },
  { C := 6, H := 14 },
  { C := 6, H := 14 },
  { C := 7, H := 16 },
  { C := 5, H := 10 },
  { C := 6, H := 12 },
  { C := 6, H := 12 },
  { C := 7, H := 14 },
  { C := 7, H := 14 },
  { C := 8, H := 16 },
  { C := 2, H := 4 },
  { C := 3, H := 6 },
  { C := 4, H := 8 },
  { C := 5, H := 10 },
  { C := 6, H := 12 },
  { C := 8, H := 16 },
  { C := 5, H := 8 },
  { C := 6, H := 6 },
  { C := 7, H := 8 },
  { C := 8, H := 10 },
  { C := 8, H := 10 },
  { C := 8, H := 10 },
  { C := 8, H := 10 },
  { C := 9, H := 12 },
  { C := 10, H := 12 },
  { C := 10, H := 14 },
  { C := 12, H := 10 },
  { C := 1, O := 1 },
  { N := 2 },
  { Ar := 1 },
  { C := 1, O := 2 },
  { O := 2, S := 1 },
  { Cl := 2 },
  { C := 1, S := 2 },
  { C := 1, H := 3, Cl := 1 },
  { C := 2, H := 5, Cl := 1 },
  { C := 3, H := 7, Cl := 1 },
  { C := 4, H := 9, Cl := 1 },
  { C := 6, H := 5, Cl := 1 },
  { C := 6, H := 5, Br := 1 },
  { C := 2, H := 6, O := 1 },
  { C := 4, H := 10, O := 1 },
  { C := 4, H := 10, O := 1 },
  { C := 2, H := 4, O := 2 },
  { C := 3, H := 6, O := 2 },
  { C := 4, H := 8, O := 2 },
  { C := 4, H := 8, O := 2 },
  { C := 5, H := 10, O := 2 },
  { C := 6, H := 12, O := 2 },
  { C := 5, H := 10, O := 2 },
  { C := 4, H := 8, O := 2 },
  { C := 5, H := 10, O := 2 },
  { C := 6, H := 12, O := 2 },
  { C := 5, H := 10, O := 2 }]

/-- formulas in /repo/parameters/gross2002.json -/
def gross2002_formulas : List Atoms := [
  { C := 1, H := 4, O := 1 },
  { C := 2, H := 6, O := 1 },
  { C := 3, H := 8, O := 1 },
  { C := 4, H := 10, O := 1 },
  { C := 5, H := 12, O := 1 },
  { C := 6, H := 14, O := 1 },
  { C := 7, H := 16, O := 1 },
  { C := 8, H := 18, O := 1 },
  { C := 9, H := 20, O := 1 },
  { C := 3, H := 8, O := 1 },
  { C := 5, H := 12, O := 1 },
  { H := 2, O := 1 },
  { C := 1, H := 5, N := 1 },
  { C := 2, H := 7, N := 1 },
  { C := 3, H := 9, N := 1 },
  { C := 3, H := 9, N := 1 },
  { C := 6, H := 7, N := 1 },
  { C := 2, H := 4, O := 2 }]

/-- formulas in /repo/parameters/gross2005_fit.json -/
def gross2005_fit_formulas : List Atoms := [
  { C := 1, O := 2 },
  { C := 1, S := 2 },
  { C := 2, H := 4 },
  { C := 2, H := 2 },
  { N := 2 },
  { Cl := 2 },
  { C := 6, H := 6 }]

/-- formulas in /repo/parameters/gross2005_literature.json -/
def gross2005_literature_formulas : List Atoms := [
  { C := 1, O := 2 },
  { C := 1, S := 2 },
  { C := 2, H := 4 },
  { C := 2, H := 2 },
  { N := 2 },
  { Cl := 2 }]

/-- formulas in /repo/parameters/gross2006.json -/
def gross2006_formulas : List Atoms := [
  { C := 3, H := 6, O := 1 },
  { C := 4, H := 8, O := 1 },
  { C := 5, H := 10, O := 1 },
  { C := 5, H := 10, O := 1 },
  { C := 3, H := 6, O := 1 },
  { C := 4, H := 8, O := 1 },
  { C := 2, H := 4, O := 2 },
  { C := 3, H := 6, O := 2 },
  { C := 4, H := 8, O := 2 },
  { C := 4, H := 8, O := 2 },
  { C := 5, H := 10, O := 2 },
  { C := 6, H := 12, O := 2 },
  { C := 4, H := 8, O := 2 },
  { C := 5, H := 10, O := 2 },
  { C := 6, H := 12, O := 2 },
  { C := 5, H := 10, O := 2 },
  { C := 2, H := 6, O := 1 },
  { C := 3, H := 8, O := 1 },
  { C := 4, H := 10, O := 1 },
  { C := 4, H := 10, O := 1 },
  { C := 2, H := 6, O := 1, S := 1 },
  { Cl := 1, H := 1 },
  { C := 1, H := 3, Cl := 1 },
  { C := 2, H := 5, Cl := 1 }]

/-- formulas in /repo/parameters/loetgeringlin2018.json -/
def loetgeringlin2018_formulas : List Atoms := [
  { C := 2, H := 1, F := 5 },
  { C := 3, H := 1, F := 7 },
  { C := 3, H := 2, F := 6 },
  { C := 2, H := 2, F := 4 },
  { C := 3, H := 2, F := 6 },
  { C := 3, H := 3, F := 5 },
  { C := 2, H := 3, Cl := 3 },
  { C := 2, H := 3, F := 3 },
  { C := 2, H := 4, F := 2 },
  { C := 2, Cl := 2, F := 4 },
  { C := 9, H := 12 },
  { C := 8, H := 10 },
  { C := 8, H := 10 },
  { C := 8, H := 18, O := 1 },
  { C := 2, Cl := 1, F := 5 },
  { C := 6, H := 14, O := 3 },
  { C := 10, H := 14 },
  { C := 10, H := 22, O := 1 },
  { C := 6, H := 14, O := 1 },
  { C := 16, H := 34 },
  { C := 8, H := 18 },
  { C := 6, H := 14 },
  { C := 5, H := 12 },
  { C := 8, H := 18 },
  { C := 6, H := 14 },
  { C := 7, H := 16 },
  { C := 30, H := 62 },
  { C := 5, H := 12, O := 1 },
  { C := 5, H := 12 },
  { C := 6, H := 14 },
  { C := 4, H := 8 },
  { C := 4, H := 8, O := 1 },
  { C := 4, H := 10 },
  { C := 6, H := 14, O := 1 },
  { C := 7, H := 16 },
  { C := 5, H := 10, O := 1 },
  { C := 7, H := 14, O := 2 },
  { C := 6, H := 14 },
  { C := 6, H := 12, O := 1 },
  { C := 4, H := 11, N := 1 },
  { C := 2, H := 7, N := 1 },
  { C := 6, H := 15, N := 1 },
  { C := 2, H := 4, O := 1 },
  { C := 6, H := 6 },
  { C := 1, Br := 1, F := 3 },
  { C := 4, H := 11, N := 1 },
  { C := 4, H := 10, O := 1 },
  { C := 4, H := 10, O := 1 },
  { C := 4, H := 8, O := 1 },
  { C := 4, H := 8, O := 1 },
  { C := 4, H := 10 },
  { C := 6, H := 12, O := 2 },
  { C := 10, H := 14 },
  { C := 1, O := 2 },
  { C := 9, H := 12 },
  { C := 6, H := 12 },
  { C := 8, H := 16 },
  { C := 5, H := 10 },
  { C := 10, H := 20 },
  { C := 10, H := 23, N := 1 },
  { C := 10, H := 22, O := 1 },
  { C := 10, H := 20, O := 1 },
  { C := 10, H := 22 },
  { C := 1, H := 1, Cl := 2, F := 1 },
  { C := 1, H := 2, F := 2 },
  { C := 22, H := 46 },
  { C := 12, H := 26, O := 1 },
  { C := 12, H := 26 },
  { C := 18, H := 30 },
  { C := 32, H := 66 },
  { C := 2, H := 6 },
  { C := 2, H := 6, O := 2 },
  { C := 2, H := 6, O := 1 },
  { C := 2, H := 4 },
  { C := 4, H := 6, O := 2 },
  { C := 4, H := 10, O := 1 },
  { C := 8, H := 10 },
  { C := 1, H := 1, F := 3 },
  { C := 21, H := 44 },
  { C := 7, H := 14 },
  { C := 17, H := 36 },
  { C := 7, H := 17, N := 1 },
  { C := 7, H := 16, O := 1 },
  { C := 7, H := 16, O := 1 },
  { C := 7, H := 14, O := 1 },
  { C := 7, H := 14, O := 1 },
  { C := 7, H := 16 },
  { C := 9, H := 18, O := 2 },
  { C := 13, H := 20 },
  { C := 6, H := 12 },
  { C := 16, H := 34, O := 1 },
  { C := 16, H := 34 },
  { C := 6, H := 15, N := 1 },
  { C := 6, H := 14, O := 1 },
  { C := 6, H := 14, O := 1 },
  { C := 6, H := 12, O := 1 },
  { C := 6, H := 14 },
  { C := 36, H := 74 },
  { C := 20, H := 42 },
  { C := 1, H := 5, N := 1 },
  { C := 1, H := 4 },
  { C := 1, H := 4, O := 1 },
  { C := 2, H := 6, O := 1 },
  { N := 2 },
  { C := 9, H := 18 },
  { C := 19, H := 40 },
  { C := 9, H := 21, N := 1 },
  { C := 9, H := 20, O := 1 },
  { C := 9, H := 20 },
  { C := 15, H := 24 },
  { C := 8, H := 16 },
  { C := 28, H := 58 },
  { C := 18, H := 38, O := 1 },
  { C := 18, H := 38 },
  { C := 8, H := 19, N := 1 },
  { C := 8, H := 18, O := 1 },
  { C := 8, H := 18, O := 1 },
  { C := 8, H := 16, O := 1 },
  { C := 8, H := 18 },
  { C := 15, H := 32 },
  { C := 5, H := 13, N := 1 },
  { C := 5, H := 12, O := 1 },
  { C := 5, H := 12, O := 1 },
  { C := 5, H := 12, O := 1 },
  { C := 5, H := 10, O := 1 },
  { C := 5, H := 12 },
  { C := 7, H := 14, O := 2 },
  { C := 3, H := 6 },
  { C := 3, H := 9, N := 1 },
  { C := 3, H := 8, O := 1 },
  { C := 3, H := 8, O := 1 },
  { C := 3, H := 6, O := 1 },
  { C := 3, H := 6, O := 1 },
  { C := 3, H := 8 },
  { C := 5, H := 10, O := 2 },
  { C := 9, H := 12 },
  { C := 24, H := 50 },
  { C := 14, H := 30, O := 1 },
  { C := 14, H := 30 },
  { C := 7, H := 8 },
  { C := 30, H := 62 },
  { C := 23, H := 48 },
  { C := 13, H := 28, O := 1 },
  { C := 13, H := 28 },
  { C := 11, H := 24, O := 1 },
  { C := 11, H := 24 }]

/-- formulas in /repo/parameters/rehner2020.json -/
def rehner2020_formulas : List Atoms := [
  { H := 2, O := 1 },
  { H := 2, O := 1 },
  { H := 2, O := 1 },
  { H := 2, O := 1 },
  { H := 2, O := 1 },
  { H := 2, O := 1 },
  { C := 1, H := 4, O := 1 },
  { C := 2, H := 6, O := 1 },
  { C := 3, H := 8, O := 1 },
  { C := 4, H := 10, O := 1 },
  { C := 5, H := 12, O := 1 },
  { C := 6, H := 14, O := 1 },
  { C := 7, H := 16, O := 1 },
  { C := 8, H := 18, O := 1 },
  { C := 9, H := 20, O := 1 },
  { C := 10, H := 22, O := 1 },
  { C := 12, H := 26, O := 1 },
  { C := 3, H := 8, O := 1 },
  { C := 4, H := 10, O := 1 },
  { C := 5, H := 12, O := 1 },
  { C := 5, H := 12, O := 1 },
  { C := 2, H := 6, O := 2 },
  { C := 3, H := 8, O := 2 },
  { C := 3, H := 8, O := 3 }]

/-- formulas in /repo/parameters/gc_substances.json -/
def gc_substances_formulas : List Atoms := [
  { C := 1, H := 4, O := 1 },
  { C := 2, H := 6, O := 1 },
  { C := 3, H := 8, O := 1 },
  { C := 4, H := 10, O := 1 },
  { C := 5, H := 12, O := 1 },
  { C := 6, H := 14, O := 1 },
  { C := 7, H := 16, O := 1 },
  { C := 8, H := 18, O := 1 },
  { C := 9, H := 20, O := 1 },
  { C := 3, H := 8, O := 1 },
  { C := 5, H := 12, O := 1 },
  { C := 1, H := 5, N := 1 },
  { C := 2, H := 7, N := 1 },
  { C := 3, H := 9, N := 1 },
  { C := 3, H := 9, N := 1 },
  { C := 6, H := 7, N := 1 },
  { C := 2, H := 4, O := 2 },
  { C := 2, H := 6 },
  { C := 3, H := 8 },
  { C := 4, H := 10 },
  { C := 5, H := 12 },
  { C := 6, H := 14 },
  { C := 7, H := 16 },
  { C := 8, H := 18 },
  { C := 9, H := 20 },
  { C := 10, H := 22 },
  { C := 11, H := 24 },
  { C := 12, H := 26 },
  { C := 13, H := 28 },
  { C := 14, H := 30 },
  { C := 15, H := 32 },
  { C := 16, H := 34 },
  { C := 17, H := 36 },
  { C := 18, H := 38 },
  { C := 19, H := 40 },
  { C := 20, H := 42 },
  { C := 4, H := 10 },
  { C := 5, H := 12 },
  { C := 5, H := 12 },
  { C := 6, H := 14 },
  { C := 6, H := 14 },
  { C := 6, H := 14 },
  { C := 6, H := 14 },
  { C := 7, H := 16 },
  { C := 5, H := 10 },
  { C := 6, H := 12 },
  { C := 6, H := 12 },
  { C := 7, H := 14 },
  { C := 7, H := 14 },
  { C := 8, H := 16 },
  { C := 2, H := 4 },
  { C := 3, H := 6 },
  { C := 4, H := 8 },
  { C := 5, H := 10 },
  { C := 6, H := 12 },
  { C := 8, H := 16 },
  { C := 5, H := 8 },
  { C := 6, H := 6 },
  { C := 7, H := 8 },
  { C := 8, H := 10 },
  { C := 8, H := 10 },
  { C := 8, H := 10 },
  { C := 8, H := 10 },
  { C := 9, H := 12 },
  { C := 10, H := 12 },
  { C := 10, H := 14 },
  { C := 12, H := 10 },
  { C := 2, H := 6, O := 1 },
  { C := 4, H := 10, O := 1 },
  { C := 4, H := 10, O := 1 },
  { C := 2, H := 4, O := 2 },
  { C := 3, H := 6, O := 2 },
  { C := 4, H := 8, O := 2 },
  { C := 4, H := 8, O := 2 },
  { C := 5, H := 10, O := 2 },
  { C := 6, H := 12, O := 2 },
  { C := 5, H := 10, O := 2 },
  { C := 4, H := 8, O := 2 },
  { C := 5, H := 10, O := 2 },
  { C := 6, H := 12, O := 2 },
  { C := 5, H := 10, O := 2 },
  { C := 3, H := 6, O := 1 },
  { C := 4, H := 8, O := 1 },
  { C := 5, H := 10, O := 1 },
  { C := 5, H := 10, O := 1 },
  { C := 3, H := 6, O := 1 },
  { C := 4, H := 8, O := 1 },
  { C := 2, H := 4, O := 2 },
  { C := 3, H := 6, O := 2 },
  { C := 4, H := 8, O := 2 },
  { C := 4, H := 8, O := 2 },
  { C := 5, H := 10, O := 2 },
  { C := 6, H := 12, O := 2 },
  { C := 4, H := 8, O := 2 },
  { C := 5, H := 10, O := 2 },
  { C := 6, H := 12, O := 2 },
  { C := 5, H := 10, O := 2 },
  { C := 2, H := 6, O := 1 },
  { C := 3, H := 8, O := 1 },
  { C := 4, H := 10, O := 1 },
  { C := 4, H := 10, O := 1 },
  { C := 2, H := 4 }]

/-- molar weights of the groups, the same in /repo/parameters/sauer2014_homo.json and loetgeringlin2015_homo.json -/
def group_weight : Group → ℚ
  | .CH3 => 15.0345
  | .CH2 => 14.02658
  | .CH => 13.01854
  | .C => 12.0107
  | .dCH2 => 14.02658
  | .dCH => 13.01854
  | .dC => 12.0107
  | .tCCH => 25.02924
  | .CH2_hex => 14.02658
  | .CH_hex => 13.01854
  | .CH2_pent => 14.02658
  | .CH_pent => 13.01854
  | .CH_arom => 13.01854
  | .C_arom => 12.0107
  | .CHO => 29.01754
  | .CO => 28.0097
  | .OCH3 => 31.03322
  | .OCH2 => 30.02538
  | .HCOO => 45.01654
  | .COO => 44.0087
  | .OH => 17.00734
  | .NH2 => 16.02238

end PcSaft.Shipped
