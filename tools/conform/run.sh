#!/bin/sh
# Executes the model on the inputs of the project's unit tests (see conform.txt).  Needs a built /verif/lean.
cd "$(dirname "$0")/../../lean" || exit 1
cp ../tools/conform/conform.txt /tmp/conform_run.lean
exec lake env lean /tmp/conform_run.lean
