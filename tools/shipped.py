"""Write lean/Verif/Model/Shipped.lean and ShippedFormulas.lean from the parameter files in /repo/parameters.

Numbers are copied as decimal literals, without going through floating point."""
import json
import re

SRC = "/repo/parameters/"
OUT = "/verif/lean/Verif/Model/Shipped.lean"
FORMULAS = "/verif/lean/Verif/Model/ShippedFormulas.lean"
FILES = ["gross2001", "gross2002", "gross2005_fit", "gross2005_literature", "gross2006",
         "loetgeringlin2018", "rehner2020"]
GROUPS = ["sauer2014_homo", "loetgeringlin2015_homo"]
CTOR = {"CH3": "CH3", "CH2": "CH2", ">CH": "CH", ">C<": "C", "=CH2": "dCH2", "=CH": "dCH", "=C<": "dC",
        "C≡CH": "tCCH", "CH2_hex": "CH2_hex", "CH_hex": "CH_hex", "CH2_pent": "CH2_pent", "CH_pent": "CH_pent",
        "CH_arom": "CH_arom", "C_arom": "C_arom", "CH=O": "CHO", ">C=O": "CO", "OCH3": "OCH3", "OCH2": "OCH2",
        "HCOO": "HCOO", "COO": "COO", "OH": "OH", "NH2": "NH2"}


def load(name):
    return json.load(open(SRC + name + ".json"), parse_float=str, parse_int=str)


def num(s):
    s = s.lower()
    if "e" in s:
        a, b = s.split("e")
        s = a + "e" + str(int(b))
    return "(" + s + ")" if s.startswith("-") else s


def options(m):
    out = ""
    for k in ["mu", "q", "kappa_ab", "epsilon_k_ab", "na", "nb"]:
        if m.get(k) is not None:
            out += f" ({k} := some {num(m[k])})"
    if m.get("viscosity") is not None:
        out += " (viscosity := some ![" + ", ".join(num(x) for x in m["viscosity"]) + "])"
    assert set(m) <= {"m", "sigma", "epsilon_k", "mu", "q", "kappa_ab", "epsilon_k_ab", "na", "nb", "viscosity"}
    return out


def wrap(items):
    return "[\n" + ",\n".join("  " + i for i in items) + "]\n"


def main():
    o = """import Verif.Model.Parameters

/-! # The parameter files shipped with the crate

Generated by tools/shipped.py from /repo/parameters: every record of every file with pure-component parameters,
the homosegmented group parameters, and the groups of every substance.  Numbers are the decimals in the files. -/

namespace PcSaft.Shipped

/-- a record as it is read from a file: fields that are not given are absent -/
def record (m sigma epsilon_k : ℚ) (mu q kappa_ab epsilon_k_ab na nb : Option ℚ := none)
    (viscosity : Option (Fin 4 → ℚ) := none) : PcSaftRecord ℚ where
  m := m
  sigma := sigma
  epsilon_k := epsilon_k
  mu := mu
  q := q
  kappa_ab := kappa_ab
  epsilon_k_ab := epsilon_k_ab
  na := na
  nb := nb
  viscosity := viscosity
  diffusion := none
  thermal_conductivity := none

/-- a pure-component entry of a file (the identifier without CAS number, SMILES and so on) -/
def substance (name : String) (molarweight : ℚ) (r : PcSaftRecord ℚ) : PureRecord ℚ where
  identifier := ⟨some name, ""⟩
  molarweight := molarweight
  model_record := r
  ideal_gas_record := none

"""
    for f in FILES:
        d = load(f)
        o += f"/-- /repo/parameters/{f}.json -/\ndef {f} : List (PureRecord ℚ) := "
        o += wrap([f"substance {json.dumps(x['identifier']['name'], ensure_ascii=False)} {num(x['molarweight'])} "
                   f"(record {num(x['model_record']['m'])} {num(x['model_record']['sigma'])} "
                   f"{num(x['model_record']['epsilon_k'])}{options(x['model_record'])})" for x in d]) + "\n"
        for x in d:
            assert set(x) == {"identifier", "molarweight", "model_record"}
    o += "/-- all pure-component files -/\ndef substances : List (PureRecord ℚ) :=\n  " + " ++ ".join(FILES) + "\n\n"
    o += "/-- the groups of the group contribution files -/\ninductive Group\n"
    o += "  | " + " | ".join(CTOR.values()) + "\n  deriving DecidableEq\n\n"
    for f in GROUPS:
        d = load(f)
        assert [x["identifier"] for x in d] == list(CTOR)
        o += f"/-- /repo/parameters/{f}.json -/\ndef {f} : Group → PcSaftRecord ℚ\n"
        for x in d:
            m = x["model_record"]
            o += f"  | .{CTOR[x['identifier']]} => record {num(m['m'])} {num(m['sigma'])} {num(m['epsilon_k'])}{options(m)}\n"
        o += "\n"
    d = load("gc_substances")
    o += "/-- the groups of each substance of /repo/parameters/gc_substances.json -/\ndef gc_substances : List (String × List Group) := "
    o += wrap([f"({json.dumps(x['identifier']['name'], ensure_ascii=False)}, [" + ", ".join("." + CTOR[s] for s in x["segments"]) + "])"
               for x in d])
    o += "\nend PcSaft.Shipped\n"
    open(OUT, "w").write(o)


def atoms(formula):
    assert re.fullmatch(r"([A-Z][a-z]?\d*)+", formula)
    counts = re.findall(r"([A-Z][a-z]?)(\d*)", formula)
    assert len({e for e, _ in counts}) == len(counts)
    return "{ " + ", ".join(f"{e} := {n or 1}" for e, n in counts) + " }"


def formulas():
    o = """import Verif.Model.Shipped

/-! # Chemical formulas in the parameter files shipped with the crate

Generated by tools/shipped.py from /repo/parameters: the field `formula` of the identifiers, in the order of the records,
and the molar weights of the groups. -/

namespace PcSaft.Shipped

/-- numbers of atoms; the files contain no other elements -/
structure Atoms where
  C : ℕ := 0
  H : ℕ := 0
  N : ℕ := 0
  O : ℕ := 0
  F : ℕ := 0
  S : ℕ := 0
  Cl : ℕ := 0
  Br : ℕ := 0
  Ar : ℕ := 0
  deriving DecidableEq

"""
    for f in FILES + ["gc_substances"]:
        o += f"/-- formulas in /repo/parameters/{f}.json -/\ndef {f}_formulas : List Atoms := "
        o += wrap([atoms(x["identifier"]["formula"]) for x in load(f)]) + "\n"
    d = [load(f) for f in GROUPS]
    for x, y in zip(*d):
        assert x["identifier"] == y["identifier"] and float(x["molarweight"]) == float(y["molarweight"])
    o += "/-- molar weights of the groups, the same in /repo/parameters/sauer2014_homo.json and loetgeringlin2015_homo.json -/\n"
    o += "def group_weight : Group → ℚ\n"
    for x in d[0]:
        o += f"  | .{CTOR[x['identifier']]} => {num(x['molarweight'])}\n"
    o += "\nend PcSaft.Shipped\n"
    open(FORMULAS, "w").write(o)


main()
formulas()
