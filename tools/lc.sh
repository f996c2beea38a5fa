#!/bin/bash
# compile one file, print only short errors
cd /verif/lean; ulimit -v 64000000; export LEAN_NUM_THREADS=3; timeout 900 lake env lean "$1" >/tmp/lc.out 2>&1 ; rc=$?;  grep -A"${2:-12}" -E "error|warning: declaration uses|terminating" /tmp/lc.out | cut -c1-220 | head -${3:-120}; echo rc=$rc
