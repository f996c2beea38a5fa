{
 "Detail/Schwarz:dtor": {
  "tightened": [
   "C28_last"
  ],
  "note": "C28: deleting at the last initializer object is checked (monitors had no theorem)"
 },
 "Detail/Schwarz:Reach": {
  "tightened": [],
  "note": "none: the precondition of an environment step is weakened or strengthened; the claims hold for the larger set of histories too"
 },
 "Mem/Pool:release": {
  "tightened": [
   "C45_alive"
  ],
  "note": "C45: the monitor flag is gone, use after deletion is stated directly"
 },
 "Mem/Pool:Reach": {
  "tightened": [
   "C45_alive"
  ],
  "note": "C45: the monitor flag is gone, use after deletion is stated directly"
 },
 "Mem/Pool:State": {
  "tightened": [
   "C45_alive"
  ],
  "note": "C45"
 },
 "Mem/Shadow:ssCreate": {
  "tightened": [
   "C46_pointer"
  ],
  "note": "C46: where the shadow stack pointer is stored and what it points to"
 },
 "Mem/Traits:defaultSize": {
  "tightened": [
   "C44_sizes"
  ],
  "note": "C44: documented sizes"
 },
 "Mem/Traits:minimumSizeWin64": {
  "tightened": [
   "C44_sizes"
  ],
  "note": "C44: documented sizes"
 },
 "Mem/Traits:minimumSizeWin32": {
  "tightened": [
   "C44_sizes"
  ],
  "note": "C44: documented sizes"
 },
 "Mem/Alloc:OS.put": {
  "tightened": [
   "C42_fault_iff"
  ],
  "note": "C42: the monitor reports every unmatched release"
 },
 "Mem/Valgrind:VG.deregister": {
  "tightened": [
   "C85_fault_iff"
  ],
  "note": "C85: the monitor reports every unmatched deregistration"
 },
 "Mem/Pool:addRef": {
  "tightened": [
   "C45_alive"
  ],
  "note": "C45: the monitor flag is gone, use after deletion is stated directly"
 },
 "Cont/Model:Op.loses": {
  "tightened": [
   "C21_no_lost_context",
   "C21_no_leak"
  ],
  "note": "the hypothesis ReachableNS became nearly unsatisfiable; examples with concrete histories added beside C21_no_lost_context, C21_no_leak, C70_no_lost_context, C70_balance"
 }
}