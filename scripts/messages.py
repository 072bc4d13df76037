"""Compare the texts of compile errors in the model with the source: every literal of the source that is part of a message
must occur in the model, and the other way round. Texts of panics are not compared, nor those of `TypeParsingError`, which
the parsers replace by their own. Run from /verif."""
import re, glob, sys

SRC = "/repo/bitfields_impl/src/parsing/**/*.rs"
MODEL = ["lean/Verif/Model/Args.lean", "lean/Verif/Model/Parser.lean", "lean/Verif/Model/Bitflag.lean",
         "lean/Verif/Model/ConstExpr.lean"]


def unescape(s):
    s = re.sub(r"\\\n\s*", "", s)
    return s.replace('\\"', '"').replace("\\\\", "\\")


def literals(text):
    return [unescape(m.group(1)) for m in re.finditer(r'"((?:[^"\\]|\\.|\\\n)*)"', text, re.S)]


def pieces(s):
    return [p for p in re.split(r"\{[^{}]*\}", s) if p.strip(" '`.()")]


rust = {}
for path in sorted(glob.glob(SRC, recursive=True)):
    text = open(path).read().split("#[cfg(test)]")[0]
    text = re.sub(r"^\s*//.*$", "", text, flags=re.M)
    text = re.sub(r'(expect|unreachable!|panic!|unwrap_or_else)\(\s*(\|_?\w*\|)?\s*(\w+!\()?\s*"(?:[^"\\]|\\.|\\\n)*"', "", text)
    if path.endswith(("type_parse_error.rs", "spanned_data_type.rs")):
        continue
    for lit in literals(text):
        if " " in lit and not lit.startswith("Failed to parse integer"):  # never shown, const_expr.rs:73-78
            for p in pieces(lit):
                rust.setdefault(p, path)
lean = {}
for path in MODEL:
    text = re.sub(r"/-.*?-/", "", open(path).read(), flags=re.S)
    for lit in literals(text):
        if " " in lit.strip(" "):
            lean.setdefault(lit, path)
allrust = "\n".join(rust)
alllean = "\n".join(lean)
bad = 0
for p, path in rust.items():
    if p.strip(" '`.()") not in alllean:
        print("not in the model:", repr(p), path); bad += 1
for p, path in lean.items():
    if p != "expected `,`" and p.strip(" '`.()") not in allrust:  # that one is of `syn`
        print("not in the source:", repr(p), path); bad += 1
print(f"{len(rust)} pieces of the source, {len(lean)} of the model, {bad} differences")
sys.exit(bad != 0)
