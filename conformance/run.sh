#!/bin/bash
# Runs the Lean model on the recorded inputs of /repo/tests/datatests and compares with the recorded outputs.
# Not part of any proof. Works in a temporary directory, needs a built /verif/lean.
set -e
here=$(cd "$(dirname "$0")" && pwd)
tmp=$(mktemp -d)
cp "$here"/* "$tmp"
cd "$tmp"
for f in *.lean.txt; do mv "$f" "${f%.txt}"; done
python3 semantic_prep.py
python3 act_prep.py
python3 serde_prep.py
python3 pdf_prep.py > in3.txt
cd "$here/../lean"
lake build Verif.Model.SemanticInfo Verif.Model.BlockAmendment Verif.Model.Pdf Verif.Model.Serde > /dev/null
lake env lean --run "$tmp/semantic.lean" < "$tmp/in.txt" > "$tmp/out.txt"
lake env lean --run "$tmp/act.lean" < "$tmp/in2.txt" > "$tmp/out2.txt"
lake env lean --run "$tmp/pdf.lean" < "$tmp/in3.txt" > "$tmp/out3.txt"
lake env lean --run "$tmp/serde.lean" < "$tmp/in4.txt" > "$tmp/out4.txt"
cd "$tmp"
python3 semantic_cmp.py
python3 act_cmp.py
python3 pdf_cmp.py
python3 serde_cmp.py
rm -r "$tmp"
