PARTIAL = {}
NOTE = {}
