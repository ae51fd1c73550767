#!/bin/sh
# Rewrite lean/Verif.lean from the list of modules.
cd /verif/lean && (cd Verif; find . -name '*.lean' | sort | sed 's|^\./||; s|\.lean$||; s|/|.|g; s|^|import Verif.|') > Verif.lean
