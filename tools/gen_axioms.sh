#!/bin/sh
# Writes AXIOMS.txt: the axioms of every property theorem.
cd /verif/lean
{ echo "import Verif"; grep -ho "^theorem C[0-9][0-9]*_[A-Za-z0-9_']*" Verif/Props/*.lean | sed 's/^theorem /#print axioms Fcsql./'; } > /tmp/axioms.lean
lake env lean /tmp/axioms.lean > ../AXIOMS.txt
