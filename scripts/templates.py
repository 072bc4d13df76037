"""Compares the templates of lean/Verif/Model/Emit.lean and EmitFlag.lean with the `quote!` bodies in /repo, up to white space.

Every `quote! "..."` of these files has to be the body of a `quote! { .. }` in the generator, and every body in the
generator has to be in one of the files. Prints what is not."""
import glob
import os
import re
import sys

repo = sys.argv[1] if len(sys.argv) > 1 else "/repo"
here = os.path.dirname(os.path.abspath(__file__))
root = os.path.join(repo, "bitfields_impl/src/generating")


def squeeze(text):
    """The text without white space and the line continuations of strings."""
    return "".join(re.sub(r"\\\n\s*", "", text).split())


def bodies(text):
    """The bodies of the `quote!` calls and their lines."""
    for m in re.finditer(r"quote(?:::quote)?!\s*\{", text):
        i = j = m.end()
        depth, string = 1, False
        while depth:
            c = text[j]
            if string:
                if c == "\\":
                    j += 1
                elif c == '"':
                    string = False
            elif c == '"':
                string = True
            elif c in "{}":
                depth += 1 if c == "{" else -1
            j += 1
        yield text.count("\n", 0, m.start()) + 1, squeeze(text[i : j - 1])


lean = "".join(open(os.path.join(here, f"../lean/Verif/Model/{x}.lean")).read() for x in ("Emit", "EmitFlag"))
ours = {re.sub(r"\\(.)", r"\1", squeeze(s)) for s in re.findall(r'quote! "((?:[^"\\]|\\[\s\S])*)"', lean)}
theirs = {}
for path in glob.glob(root + "/**/*.rs", recursive=True):
    code = open(path).read().split("#[cfg(test)]")[0]
    for line, body in bodies(code):
        if body:  # an empty template is `[]`
            theirs.setdefault(body, []).append(f"{os.path.relpath(path, root)}:{line}")

bad = sorted(b for b in ours if b not in theirs)
missing = sorted((theirs[b][0], b) for b in theirs if b not in ours)
print(f"{len(ours)} templates in the model, {len(theirs)} in the generator")
for b in bad:
    print("not in the generator:", b)
for where, b in missing:
    print("not in the model:", where, b)
sys.exit(1 if bad or missing else 0)
