#!/bin/sh
# Every module is elaborated without automatically bound variables, so that a misspelt or unopened name cannot become a parameter.
# Prints the modules that fail; prints nothing when all is well. Needs a finished build.
cd "$(dirname "$0")/../lean" || exit 1
ls Verif/*/*.lean | xargs -P3 -I{} sh -c 'lake env lean -DautoImplicit=false {} > /dev/null 2>&1 || echo {}'
